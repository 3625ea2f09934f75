import Verif.Model.FromText
import Verif.Lemmas.TextPrintable

/-! Helper lemmas: scanning rdata text only appends to the buffer. -/

namespace Wdns
open Outcome Spec

/-- The buffer a field leaves behind. -/
def FRes.buf : FRes → List UInt8
  | .go _ u => u
  | .bad _ u => u

theorem prefix_set {u w : List UInt8} {i : Nat} {b : UInt8} (h : u <+: w) (hi : u.length ≤ i) : u <+: w.set i b := by
  obtain ⟨t, rfl⟩ := h
  rw [List.set_append_right _ _ hi]
  exact List.prefix_append _ _

theorem prefix_app {u w t : List UInt8} (h : u <+: w) : u <+: w ++ t := h.trans (List.prefix_append _ _)

theorem prefix_take {u w : List UInt8} {n : Nat} (h : u <+: w) (hn : u.length ≤ n) : u <+: w.take n := by
  rw [List.prefix_take_iff]; exact ⟨h, hn⟩

theorem take_prefix_len {u w : List UInt8} (h : u <+: w) : w.take u.length = u := (List.prefix_iff_eq_take.mp h).symm

theorem fssLoop_prefix (q : Bool) (s u : List UInt8) (n : Nat) : u <+: (fssLoop q s u n).2.2 := by
  fun_induction fssLoop q s u n <;> simp_all
  all_goals exact (List.prefix_append _ _).trans ‹_›

theorem rdataFromStrString_prefix (s u : List UInt8) : u <+: (rdataFromStrString s u).2 := by
  unfold rdataFromStrString
  simp only
  have h : u <+: (if s.head? = some 34 then fssLoop true (s.drop 1) u 1 else fssLoop false s u 0).2.2 := by
    split <;> exact fssLoop_prefix _ _ _ _
  generalize (if s.head? = some 34 then fssLoop true (s.drop 1) u 1 else fssLoop false s u 0) = r at h ⊢
  split
  · exact h
  · rw [take_prefix_len h]
    exact List.prefix_refl _

theorem strToUbuf_prefix (s u : List UInt8) : u <+: (strToUbuf s u).2.2 := by
  have h : u <+: (rdataFromStrString s (u ++ [0])).2 := (List.prefix_append u [0]).trans (rdataFromStrString_prefix _ _)
  unfold strToUbuf
  simp only
  split
  · exact h
  · split
    · exact h
    · exact prefix_set h (Nat.le_refl _)

theorem svcMandTok_prefix (toks : List (List UInt8)) (n : Nat) (u : List UInt8) : u <+: (svcMandTok toks n u).2.2 := by
  induction toks generalizing n u with
  | nil => simp [svcMandTok]
  | cons t ts ih =>
    unfold svcMandTok
    simp only
    split
    · simp
    · exact (List.prefix_append _ _).trans (ih _ _)

theorem svcIpTok_prefix (f : List UInt8 → Option (List UInt8)) (sz : Nat) (toks : List (List UInt8)) (n : Nat) (u : List UInt8) :
    u <+: (svcIpTok f sz toks n u).2.2 := by
  induction toks generalizing n u with
  | nil => simp [svcIpTok]
  | cons t ts ih =>
    unfold svcIpTok
    split
    · simp
    · exact (List.prefix_append _ _).trans (ih _ _)

theorem svcAlpnTok_prefix (s : List UInt8) (off oc n : Nat) (u w : List UInt8) (h : w <+: u) (ho : w.length ≤ off) :
    w <+: (svcAlpnTok s off oc n u).2.2 := by
  fun_induction svcAlpnTok s off oc n u with
  | case1 off oc n u h1 => exact prefix_set h ho
  | case2 => exact h
  | case3 => exact h
  | case4 => exact h
  | case5 off oc n u d ds h1 ih => exact ih (prefix_app h) ho
  | case6 off oc n u cs h1 ih => exact ih (prefix_app (prefix_set h ho)) h.length_le
  | case7 off oc n u c cs h1 h2 ih => exact ih (prefix_app h) ho

theorem svcValue_prefix (key : Nat) (val u : List UInt8) : (svcValue key val u).Ens fun r => u <+: r.2.2 := by
  unfold svcValue
  simp only
  have hp : ∀ c, u <+: (svcPortTok c u).2.2 := by
    intro c
    unfold svcPortTok
    split
    · simp
    · simp only
      split <;> simp
  have he : ∀ c, (svcEchTok c u).Ens fun r => u <+: r.2.2 := by
    intro c
    unfold svcEchTok
    split
    · exact .ok (by simp)
    · refine .ite (fun _ => .ok (by simp)) fun _ => .bind' fun b => .ok (by simp)
  refine .ite (fun _ => .ok ?_) fun _ => ?_
  · split
    · simp
    · exact svcMandTok_prefix _ _ _
  refine .ite (fun _ => .ok (hp _)) fun _ => ?_
  refine .ite (fun _ => he _) fun _ => ?_
  refine .ite (fun _ => .ok ?_) fun _ => ?_
  · split
    · simp
    · exact svcIpTok_prefix _ _ _ _ _
  refine .ite (fun _ => .ok ?_) fun _ => ?_
  · split
    · simp
    · exact svcIpTok_prefix _ _ _ _ _
  refine .ite (fun _ => .ok ?_) fun _ => ?_
  · exact svcAlpnTok_prefix _ _ _ _ _ _ (List.prefix_append _ _) (Nat.le_refl _)
  · exact .ok (by simp)

theorem strToSvcparam_prefix (u : List UInt8) (key : Nat) (val : Option (List UInt8)) :
    (strToSvcparam u key val).Ens fun r => u <+: r.2 := by
  unfold strToSvcparam
  refine .ite (fun _ => .abort) fun _ => ?_
  simp only
  refine .ite (fun _ => ?_) fun _ => ?_
  · cases val
    · exact .ok (by simp)
    · exact .ok (by simp)
  · cases val with
    | none => exact .ub
    | some v =>
      refine .bind (svcValue_prefix key v _) fun r hr => ?_
      have h2 : u <+: r.2.2 := by
        refine List.IsPrefix.trans ?_ hr
        rw [List.append_assoc]; exact List.prefix_append _ _
      refine .ite (fun _ => .ok h2) fun _ => .ok ?_
      unfold poke2
      refine prefix_set (prefix_set h2 ?_) ?_ <;> (simp only [List.length_append]; omega)

theorem sBytes_prefix (s u : List UInt8) : (sBytes s u).Ens fun r => u <+: r.buf := by
  fun_induction sBytes s u with
  | case1 => exact .ok (by simp [FRes.buf])
  | case2 => exact .ok (by simp [FRes.buf])
  | case3 => exact .ub
  | case4 => exact .ok (by simp [FRes.buf])
  | case5 c d s u b hb ih => exact ih.mono fun r hr => (List.prefix_append _ _).trans hr

theorem sGeneric_prefix (s : List UInt8) (n : Nat) (u : List UInt8) : (sGeneric s n u).Ens fun r => u <+: r.2 := by
  fun_induction sGeneric s n u with
  | case1 => exact .ok (by simp)
  | case2 _ _ _ _ _ ih => exact ih
  | case3 => exact .ok (by simp)
  | case4 => exact .ub
  | case5 => exact .ok (by simp)
  | case6 n u c h d s b hb ih => exact ih.mono fun r hr => (List.prefix_append _ _).trans hr

theorem sSalt_prefix (n : Nat) (s u : List UInt8) : (sSalt n s u).Ens fun r => u <+: r.buf := by
  fun_induction sSalt n s u with
  | case1 => exact .ok (by simp [FRes.buf])
  | case2 => exact .ub
  | case3 => exact .ok (by simp [FRes.buf])
  | case4 n s u b hb ih => exact ih.mono fun r hr => (List.prefix_append _ _).trans hr

theorem sInt_prefix (n : Nat) (s u : List UInt8) : (sInt n s u).Ens fun r => u <+: r.buf := by
  unfold sInt
  split
  · split
    · exact .ub
    · exact .ok (by simp [FRes.buf])
    · split <;> exact .ok (by simp [FRes.buf])
  · exact .ok (by simp [FRes.buf])

theorem sRepstring_prefix (fuel : Nat) (s u : List UInt8) : (sRepstring fuel s u).Ens fun r => u <+: r.buf := by
  induction fuel generalizing s u with
  | zero => exact .hang
  | succ fuel ih =>
    unfold sRepstring
    cases s with
    | nil => exact .ok (by simp [FRes.buf])
    | cons c cs =>
      simp only
      refine .ite (fun _ => ih _ _) fun _ => ?_
      have h : u <+: (rdataFromStrString (c :: cs) (u ++ [0])).2 :=
        (List.prefix_append u [0]).trans (rdataFromStrString_prefix _ _)
      refine .ite (fun _ => .ok h) fun _ => .ite (fun _ => .ok h) fun _ => ?_
      exact (ih _ _).mono fun r hr => (prefix_set h (Nat.le_refl _)).trans hr

theorem sSvcparams_prefix (fuel : Nat) (s u : List UInt8) : (sSvcparams fuel s u).Ens fun r => u <+: r.buf := by
  induction fuel generalizing s u with
  | zero => exact .hang
  | succ fuel ih =>
    unfold sSvcparams
    cases s with
    | nil => exact .ok (by simp [FRes.buf])
    | cons c cs =>
      simp only
      refine .ite (fun _ => ih _ _) fun _ => ?_
      refine .ite (fun _ => .ok (by simp [FRes.buf])) fun _ => ?_
      refine .ite (fun _ => ?_) fun _ => ?_
      · refine .ite (fun _ => .ok (by simp [FRes.buf])) fun _ => ?_
        refine .bind (strToSvcparam_prefix _ _ _) fun r hr => ?_
        refine .ite (fun _ => .ok hr) fun _ => (ih _ _).mono fun r' hr' => hr.trans hr'
      · have h := rdataFromStrString_prefix (((c :: cs).drop ((c :: cs).takeWhile fun c => decide (c ≠ 61 ∧ c ≠ 32)).length).drop 1) u
        refine .ite (fun _ => .ok h) fun _ => ?_
        rw [take_prefix_len h]
        refine .bind (strToSvcparam_prefix _ _ _) fun r hr => ?_
        refine .ite (fun _ => .ok hr) fun _ => (ih _ _).mono fun r' hr' => hr.trans hr'

theorem bmLoop_prefix (ts : List Nat) (win blen : Nat) (bm : List UInt8) (last : Nat) (u : List UInt8) :
    u <+: bmLoop ts win blen bm last u := by
  induction ts generalizing win blen bm last u with
  | nil =>
    unfold bmLoop putWindow
    split
    · rw [List.append_assoc]; exact List.prefix_append _ _
    · exact List.prefix_refl _
  | cons t ts ih =>
    unfold bmLoop
    simp only
    split
    · exact ih _ _ _ _ _
    · split
      · refine List.IsPrefix.trans ?_ (ih _ _ _ _ _)
        unfold putWindow
        split
        · rw [List.append_assoc]; exact List.prefix_append _ _
        · exact List.prefix_refl _
      · exact ih _ _ _ _ _

theorem sPrefix_prefix (s u : List UInt8) : (sPrefix s u).Ens fun r => u <+: r.buf := by
  unfold sPrefix
  split
  · split
    · exact .ub
    · exact .ok (by simp [FRes.buf])
    · refine .ite (fun _ => .ok (by simp [FRes.buf])) fun _ => ?_
      unfold sPrefixAddr
      refine .ite (fun _ => .ok (by simp [FRes.buf])) fun _ => ?_
      simp only
      split
      · refine .ite (fun _ => .ite (fun _ => .ok ?_) fun _ => .ok ?_) fun _ => .ok ?_ <;>
          simp [FRes.buf]
      · refine .ite (fun _ => .ok ?_) fun _ => .ok ?_ <;> simp [FRes.buf]
  · exact .ok (by simp [FRes.buf])

theorem sField_prefix (t : Rdf) (s u : List UInt8) : (sField t s u).Ens fun r => u <+: r.buf := by
  have hname : ∀ o : Outcome CName, (match o with
    | ok n => ok (.go (endPtr s) (u ++ n.data))
    | err r => ok (.bad r u)
    | ub => ub
    | hang => hang
    | abort => abort : Outcome FRes).Ens fun r => u <+: r.buf := by
    intro o
    cases o
    · exact .ok (by simp [FRes.buf])
    · exact .ok (by simp [FRes.buf])
    · exact .ub
    · exact .hang
    · exact .abort
  cases t <;> unfold sField <;> simp only
  case bytes => exact sBytes_prefix _ _
  case bytesB64 => exact .bind' fun b => .ok (by simp [FRes.buf])
  case bytesStr =>
    have h := rdataFromStrString_prefix s u
    exact .ite (fun _ => .ite (fun _ => .ok h) fun _ => .ok h) fun _ => .ok (by simp [FRes.buf])
  case name => exact hname _
  case uname => exact hname _
  case int8 => exact sInt_prefix _ _ _
  case int16 => exact sInt_prefix _ _ _
  case int32 => exact sInt_prefix _ _ _
  case ipv4 => split <;> exact .ok (by simp [FRes.buf])
  case ipv6 => split <;> exact .ok (by simp [FRes.buf])
  case ipv6prefix => exact sPrefix_prefix _ _
  case eui48 => unfold sEui; split; · exact .ok (by simp [FRes.buf])
                split <;> exact .ok (by simp [FRes.buf])
  case eui64 => unfold sEui; split; · exact .ok (by simp [FRes.buf])
                split <;> exact .ok (by simp [FRes.buf])
  case string =>
    have h := strToUbuf_prefix s u
    exact .ite (fun _ => .ok h) fun _ => .ok h
  case repstring => exact sRepstring_prefix _ _ _
  case rrtype => exact .bind' fun t => .ite (fun _ => .ok (by simp [FRes.buf])) fun _ => .ok (by simp [FRes.buf])
  case typeBitmap =>
    unfold sBitmap
    refine .bind' fun o => ?_
    split
    · exact .ok (by simp [FRes.buf])
    · exact .ok (bmLoop_prefix _ _ _ _ _ _)
  case salt =>
    refine .ite (fun _ => .ok (by simp [FRes.buf])) fun _ => .ite (fun _ => .ok (by simp [FRes.buf])) fun _ => ?_
    exact (sSalt_prefix _ _ _).mono fun r hr => (List.prefix_append _ _).trans hr
  case hash =>
    refine .ite (fun _ => .ok (by simp [FRes.buf])) fun _ => ?_
    split
    · exact .ok (by simp [FRes.buf])
    · exact .ite (fun _ => .ok (by simp [FRes.buf])) fun _ => .ok (by simp [FRes.buf])
  case svcparams => exact sSvcparams_prefix _ _ _
  case ednsOptRdata => exact .ok (by simp [FRes.buf])

theorem sFields_prefix (ts : List Rdf) (s : Option (List UInt8)) (u : List UInt8) :
    (sFields ts s u).Ens fun r => u <+: r.buf := by
  induction ts generalizing s u with
  | nil => cases s <;> exact .ok (by simp [FRes.buf])
  | cons t ts ih =>
    cases s with
    | none => exact .ok (by simp [FRes.buf])
    | some s =>
      unfold sFields
      refine .ite (fun _ => .ok (by simp [FRes.buf])) fun _ => ?_
      refine .bind (sField_prefix _ _ _) fun r hr => ?_
      cases r with
      | go s u => exact (ih _ _).mono fun r' hr' => hr.trans hr'
      | bad r u => exact .ok hr

theorem sUnknown_prefix (s u : List UInt8) : (sUnknown s u).Ens fun r => u <+: r.buf := by
  unfold sUnknown
  simp only
  refine .ite (fun _ => .ok (by simp [FRes.buf])) fun _ => .ite (fun _ => ?_) fun _ => .ok (by simp [FRes.buf])
  refine .ite (fun _ => ?_) fun _ => .ok (by simp [FRes.buf])
  split
  · exact .ub
  · exact .ok (by simp [FRes.buf])
  · refine .bind (sGeneric_prefix _ _ _) fun r hr => .ite (fun _ => .ok hr) fun _ => .ok hr

end Wdns
