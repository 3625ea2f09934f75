import Verif.Model.FromText

/-! Errors of the rdata scanner are never "success". -/

namespace Wdns
open Outcome

/-- The outcome is not the error value "success". -/
def Outcome.Sane {α : Type} (o : Outcome α) : Prop := o ≠ err .success

theorem Outcome.Sane.bind {α β : Type} {o : Outcome α} {f : α → Outcome β} (h : o.Sane) (hf : ∀ a, o = ok a → (f a).Sane) :
    (o >>= f).Sane := by
  cases o with
  | ok a => exact hf a rfl
  | err e =>
    intro he
    simp only [Bind.bind, Outcome.bind, err.injEq] at he
    exact h (by rw [he])
  | ub => intro he; simp [Bind.bind, Outcome.bind] at he
  | hang => intro he; simp [Bind.bind, Outcome.bind] at he
  | abort => intro he; simp [Bind.bind, Outcome.bind] at he

theorem Outcome.Sane.ok {α : Type} (a : α) : (ok a : Outcome α).Sane := by simp [Outcome.Sane]
theorem Outcome.Sane.ub {α : Type} : (ub : Outcome α).Sane := by simp [Outcome.Sane]

theorem rdS_sane (s : List UInt8) (p : Nat) : (rdS s p).Sane := by
  unfold rdS Outcome.Sane
  repeat' split
  all_goals simp

theorem wr_sane (cap : Nat) (d : List UInt8) (b : UInt8) : (wr cap d b).Sane := by
  unfold wr Outcome.Sane
  repeat' split
  all_goals simp

theorem stnLoop_sane (cap : Nat) (str : List UInt8) (dc : Bool) (fuel p : Nat) (slen : Int) (ll len : Nat) (data : List UInt8) (oc : Nat) :
    (stnLoop cap str dc fuel p slen ll len data oc).Sane := by
  induction fuel generalizing p slen ll len data oc with
  | zero => simp [stnLoop, Outcome.Sane]
  | succ fuel ih =>
    unfold stnLoop
    refine .bind (rdS_sane _ _) fun c _ => ?_
    simp only
    by_cases h1 : slen = 0
    · rw [if_pos h1]
      split
      · simp [Outcome.Sane]
      · exact .bind (wr_sane _ _ _) fun _ _ => .ok _
    rw [if_neg h1]
    split
    · simp [Outcome.Sane]
    split
    · exact .bind (wr_sane _ _ _) fun _ _ => ih _ _ _ _ _ _
    split
    · refine .bind (rdS_sane _ _) fun d _ => ?_
      split
      · split
        · simp [Outcome.Sane]
        · exact .bind (wr_sane _ _ _) fun _ _ => ih _ _ _ _ _ _
      split
      · refine .bind (rdS_sane _ _) fun d _ => .bind (rdS_sane _ _) fun d _ => ?_
        split
        · simp [Outcome.Sane]
        split
        · exact .bind (wr_sane _ _ _) fun _ _ => ih _ _ _ _ _ _
        · simp [Outcome.Sane]
      · simp [Outcome.Sane]
    split
    · split
      · simp [Outcome.Sane]
      · refine .bind (wr_sane _ _ _) fun _ _ => ?_
        split
        · exact .ok _
        · exact ih _ _ _ _ _ _
    split
    · exact .bind (wr_sane _ _ _) fun _ _ => ih _ _ _ _ _ _
    · exact ih _ _ _ _ _ _

theorem strToNameCase_sane (s : List UInt8) : (strToNameCase s).Sane := by
  unfold strToNameCase strToNameGen
  split
  · exact .ok _
  · exact stnLoop_sane _ _ _ _ _ _ _ _ _ _

/-- A field's result is not the error "success". -/
def Outcome.NoBad (o : Outcome FRes) : Prop := ∀ u, o ≠ ok (.bad .success u)

theorem sBytes_noBad (s u : List UInt8) : (sBytes s u).NoBad := by
  fun_induction sBytes s u <;> simp_all [Outcome.NoBad]

theorem sSalt_noBad (n : Nat) (s u : List UInt8) : (sSalt n s u).NoBad := by
  fun_induction sSalt n s u <;> simp_all [Outcome.NoBad]

theorem sRepstring_noBad (n : Nat) (s u : List UInt8) : (sRepstring n s u).NoBad := by
  induction n generalizing s u with
  | zero => simp [sRepstring, Outcome.NoBad]
  | succ n ih =>
    unfold sRepstring
    split
    · simp [Outcome.NoBad]
    · simp only
      split
      · exact ih _ _
      split
      · simp [Outcome.NoBad]
      split
      · simp [Outcome.NoBad]
      · exact ih _ _

theorem noBad_param {o : Outcome (Res × List UInt8)} {f : List UInt8 → Outcome FRes} (hf : ∀ u, (f u).NoBad) :
    (o >>= fun r => if r.1 ≠ .success then ok (.bad r.1 r.2) else f r.2).NoBad := by
  intro x hx
  rw [bind_eq_ok] at hx
  obtain ⟨r, -, h⟩ := hx
  split at h
  · rename_i hr; simp at h; exact hr h.1
  · exact hf _ x h

theorem sSvcparams_noBad (n : Nat) (s u : List UInt8) : (sSvcparams n s u).NoBad := by
  induction n generalizing s u with
  | zero => simp [sSvcparams, Outcome.NoBad]
  | succ n ih =>
    unfold sSvcparams
    split
    · simp [Outcome.NoBad]
    · simp only
      split
      · exact ih _ _
      split
      · simp [Outcome.NoBad]
      split
      · split
        · simp [Outcome.NoBad]
        · exact noBad_param fun u => ih _ _
      · split
        · simp [Outcome.NoBad]
        · exact noBad_param fun u => ih _ _

theorem sInt_noBad (n : Nat) (s u : List UInt8) : (sInt n s u).NoBad := by
  unfold sInt Outcome.NoBad
  intro x
  repeat' split
  all_goals simp

theorem sEui_noBad (n : Nat) (s u : List UInt8) : (sEui n s u).NoBad := by
  unfold sEui Outcome.NoBad
  intro x
  repeat' split
  all_goals simp

theorem sPrefix_noBad (s u : List UInt8) : (sPrefix s u).NoBad := by
  unfold sPrefix sPrefixAddr Outcome.NoBad
  intro x
  repeat' (first | split | simp only)
  all_goals simp

theorem sField_noBad (t : Rdf) (s u : List UInt8) : (sField t s u).NoBad := by
  have hname : ∀ o : Outcome CName, o.Sane → Outcome.NoBad (match o with
    | ok n => ok (.go (endPtr s) (u ++ n.data))
    | err r => ok (.bad r u)
    | ub => ub
    | hang => hang
    | abort => abort) := by
    intro o ho
    cases o with
    | err e =>
      intro x hx
      simp only [ok.injEq, FRes.bad.injEq] at hx
      exact ho (by rw [hx.1])
    | _ => simp [Outcome.NoBad]
  cases t with
  | name => exact hname _ (strToNameCase_sane _)
  | uname => exact hname _ (strToNameCase_sane _)
  | bytes => exact sBytes_noBad s u
  | bytesB64 =>
    intro x hx
    unfold sField at hx
    rw [bind_eq_ok] at hx
    obtain ⟨r, -, h⟩ := hx
    simp at h
  | bytesStr =>
    unfold sField Outcome.NoBad
    intro x
    simp only
    repeat' (first | split | simp only)
    all_goals simp
  | ipv6prefix => exact sPrefix_noBad s u
  | salt =>
    unfold sField
    simp only
    split
    · simp [Outcome.NoBad]
    split
    · simp [Outcome.NoBad]
    · exact sSalt_noBad _ _ _
  | hash =>
    unfold sField Outcome.NoBad
    intro x
    simp only
    repeat' (first | split | simp only)
    all_goals simp
  | int8 => exact sInt_noBad _ _ _
  | int16 => exact sInt_noBad _ _ _
  | int32 => exact sInt_noBad _ _ _
  | ipv4 =>
    unfold sField Outcome.NoBad
    intro x
    simp only
    repeat' (first | split | simp only)
    all_goals simp
  | ipv6 =>
    unfold sField Outcome.NoBad
    intro x
    simp only
    repeat' (first | split | simp only)
    all_goals simp
  | eui48 => exact sEui_noBad _ _ _
  | eui64 => exact sEui_noBad _ _ _
  | string =>
    unfold sField Outcome.NoBad
    intro x
    simp only
    split
    · rename_i h
      intro hx
      simp only [ok.injEq, FRes.bad.injEq] at hx
      exact h hx.1
    · simp
  | repstring => exact sRepstring_noBad _ _ _
  | rrtype =>
    intro x hx
    unfold sField at hx
    simp only at hx
    rw [bind_eq_ok] at hx
    obtain ⟨r, -, h⟩ := hx
    split at h <;> simp at h
  | svcparams => exact sSvcparams_noBad _ _ _
  | typeBitmap =>
    intro x hx
    unfold sField sBitmap at hx
    simp only at hx
    rw [bind_eq_ok] at hx
    obtain ⟨r, -, h⟩ := hx
    split at h <;> simp at h
  | ednsOptRdata => simp [sField, Outcome.NoBad]

theorem sFields_noBad (ts : List Rdf) (s : Option (List UInt8)) (u : List UInt8) : (sFields ts s u).NoBad := by
  induction ts generalizing s u with
  | nil => simp [sFields, Outcome.NoBad]
  | cons t ts ih =>
    cases s with
    | none => simp [sFields, Outcome.NoBad]
    | some s =>
      unfold sFields
      split
      · simp [Outcome.NoBad]
      · intro x hx
        rw [bind_eq_ok] at hx
        obtain ⟨r, h1, h⟩ := hx
        cases r with
        | go s' u' => exact ih _ _ x h
        | bad e u' =>
          simp only [ok.injEq, FRes.bad.injEq] at h
          rw [h.1] at h1
          exact sField_noBad t _ _ _ h1

end Wdns
