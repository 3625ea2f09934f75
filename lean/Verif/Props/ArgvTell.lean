import Verif.Model.ArgvTell
import Verif.Props.ArgvAccept
import Verif.Props.ArgvUsage
import Verif.Lemmas.Tables

/-!
# C123: a command line that is refused is explained
-/

namespace Wdns
open Outcome Spec

namespace Spec

/-- Entry `i` of the array, in front of its end. -/
def EntryIs (g : List AEntry) (i : Nat) (e : AEntry) : Prop := i < lastIdx g ∧ g[i]? = some e

/-- How an option is listed: the short name and, if there is one, the long name. -/
def listed (e : AEntry) : List UInt8 :=
  ascii "       -" ++ [e.short] ++ (e.long.elim [] fun l => ascii " (--" ++ l ++ ascii ")") ++ [10]

/-- `s` if there is more than one. -/
def ending (n : Nat) : List UInt8 := if n = 1 then [] else ascii "s"

/-- A message about an argument, and what it says about the array `g`. -/
inductive Complaint (v : Voice) (cfg : ACfg) (g : List AEntry) : List UInt8 → Prop
  | emptyLong : Complaint v cfg g (v.prog ++ ascii ": usage problem, empty long-option prefix '--'\n")
  | emptyShort : Complaint v cfg g (v.prog ++ ascii ": usage problem, empty short-option prefix '-'\n")
  | ambiguous {w l l' : List UInt8} {i j : Nat} {e e' : AEntry} : i < j → EntryIs g i e → EntryIs g j e' → e.long = some l → e'.long = some l' →
      w <+: l → w <+: l' →
      Complaint v cfg g (v.prog ++ ascii ": usage problem, '--" ++ w ++ ascii "' might be '" ++ l' ++ ascii "' or '" ++ l ++ ascii "'\n")
  | unknownLong {w : List UInt8} : (∀ i e l, EntryIs g i e → e.long = some l → ¬ w <+: l) →
      Complaint v cfg g (v.prog ++ ascii ": usage problem, unknown long option '--" ++ w ++ ascii "'.\n")
  | unknownShort {c : UInt8} : (∀ i e, EntryIs g i e → e.short ≠ c) →
      Complaint v cfg g (v.prog ++ ascii ": usage problem, unknown short option '-" ++ [c] ++ ascii "'.\n")
  | twice {i : Nat} {e : AEntry} : EntryIs g i e → e.array = false → cfg.multiAccept = false →
      Complaint v cfg g (v.prog ++ ascii ": usage problem, you've already specified the '" ++ [e.short] ++ ascii "' argument\n")
  | onlyOne {i j : Nat} {e e' : AEntry} : Alternatives g i j ∨ Alternatives g j i → g[i]? = some e → g[j]? = some e' →
      Complaint v cfg g (v.prog ++ ascii ": usage problem, specify only one of the following:\n" ++ listed e ++ listed e')
  | noFile {path : List UInt8} : Complaint v cfg g (v.prog ++ ascii ": could not load command-line arguments from: " ++ path ++ [10])
  | noType {i : Nat} {e : AEntry} : g[i]? = some e → (e.ty = 0 ∨ 22 < e.ty) →
      Complaint v cfg g (v.file ++ ascii ": illegal variable type " ++ decText e.ty ++ [10])
  | unwanted {n : Nat} : 0 < n →
      Complaint v cfg g (v.prog ++ ascii ": usage problem, " ++ decText n ++ ascii " unwanted additional argument" ++ ending n ++ [10])

/-- Some messages. -/
inductive Complaints (v : Voice) (cfg : ACfg) (g : List AEntry) : List UInt8 → Prop
  | nil : Complaints v cfg g []
  | cons {c t : List UInt8} : Complaint v cfg g c → Complaints v cfg g t → Complaints v cfg g (c ++ t)

end Spec

variable {v : Voice} {cfg : ACfg} {g : List AEntry}

theorem Spec.Complaints.append {a b : List UInt8} (ha : Complaints v cfg g a) (hb : Complaints v cfg g b) : Complaints v cfg g (a ++ b) := by
  induction ha with
  | nil => exact hb
  | cons h _ ih => rw [List.append_assoc]; exact .cons h ih

theorem Spec.Complaint.one {c : List UInt8} (h : Complaint v cfg g c) : Complaints v cfg g c := by
  have := Complaints.cons h .nil
  rwa [List.append_nil] at this

theorem optionLine_eq (e : AEntry) : optionLine e = listed e := by
  unfold optionLine listed spaces
  cases e.long <;> rfl

theorem listed_core {e e' : AEntry} (h : coreOf e = coreOf e') : listed e = listed e' := by
  unfold coreOf at h
  simp only [AEntry.mk.injEq] at h
  unfold listed
  rw [h.1, h.2.1]

/-- An entry of the array as it is now is an entry of the array as it was. -/
theorem entry_core {g' : List AEntry} (hc : coresOf g' = coresOf g) {i : Nat} {e : AEntry} (h : g'[i]? = some e) :
    ∃ e0, g[i]? = some e0 ∧ coreOf e0 = coreOf e := by
  have := congrArg (·[i]?) hc
  simp only [coresOf, List.getElem?_map, h, Option.map_some] at this
  obtain ⟨e0, h0, h1⟩ := Option.map_eq_some_iff.mp this.symm
  exact ⟨e0, h0, h1⟩

theorem core_fields {e e' : AEntry} (h : coreOf e = coreOf e') : e.short = e'.short ∧ e.long = e'.long ∧ e.ty = e'.ty ∧ e.array = e'.array ∧ e.mand = e'.mand := by
  unfold coreOf at h
  simp only [AEntry.mk.injEq] at h
  exact ⟨h.1, h.2.1, h.2.2.1, h.2.2.2.1, h.2.2.2.2.1⟩

/-- What a step with messages has to do with the step: the same state; the line is acceptable afterwards if and only if it was before and
nothing is written; what is written is true. -/
inductive ToldAs (v : Voice) (cfg : ACfg) (g : List AEntry) (b : Bool) : Outcome (AState × List UInt8) → Outcome AState → Prop
  | ok {s : AState} {t : List UInt8} : coresOf s.grid = coresOf g → (s.okay = true ↔ b = true ∧ t = []) → Complaints v cfg g t →
      ToldAs v cfg g b (ok (s, t)) (ok s)
  | err (r : Res) : ToldAs v cfg g b (err r) (err r)
  | ub : ToldAs v cfg g b ub ub
  | hang : ToldAs v cfg g b hang hang
  | abort : ToldAs v cfg g b abort abort

theorem ToldAs.bind {b : Bool} {T : Outcome (AState × List UInt8)} {D : Outcome AState} (h : ToldAs v cfg g b T D)
    {F : AState → Outcome (AState × List UInt8)} {G : AState → Outcome AState}
    (hk : ∀ s, coresOf s.grid = coresOf g → ToldAs v cfg g s.okay (F s) (G s)) :
    ToldAs v cfg g b (T >>= fun r => F r.1 >>= fun q => Outcome.ok (q.1, r.2 ++ q.2)) (D >>= G) := by
  cases h with
  | err r => exact .err r
  | ub => exact .ub
  | hang => exact .hang
  | abort => exact .abort
  | @ok s t hc ho ht =>
    rw [ok_bind, ok_bind]
    have := hk s hc
    generalize F s = f at this ⊢
    generalize G s = d at this ⊢
    cases this with
    | err r => exact .err r
    | ub => exact .ub
    | hang => exact .hang
    | abort => exact .abort
    | ok hc' ho' ht' =>
      refine .ok hc' ?_ (ht.append ht')
      rw [ho', ho, List.append_eq_nil_iff, and_assoc]

/-- A step that writes something and makes the line unacceptable. -/
theorem ToldAs.bad {s : AState} {t : List UInt8} {F : AState → Outcome (AState × List UInt8)} {D : Outcome AState} (b : Bool)
    (ht : Complaint v cfg g t) (hn : t ≠ []) (hs : s.okay = false)
    (h : ToldAs v cfg g s.okay (F s) D) : ToldAs v cfg g b (F s >>= fun q => Outcome.ok (q.1, t ++ q.2)) D := by
  generalize F s = f at h ⊢
  cases h with
  | err r => exact .err r
  | ub => exact .ub
  | hang => exact .hang
  | abort => exact .abort
  | ok hc' ho' ht' =>
    refine .ok hc' ?_ (ht.one.append ht')
    rw [ho', hs]
    simp [hn]

/-! ### Alternatives -/

theorem orBelowAt_eq {g : List AEntry} : ∀ (i : Nat), orBelow g i = orBelowAt g i >>= fun m => ok m.isSome
  | 0 => rfl
  | 1 => rfl
  | k + 2 => by
    rw [orBelow, orBelowAt]
    cases entryAt g (k + 1) with
    | ok sep =>
      rw [ok_bind, ok_bind]
      split
      · rfl
      · cases entryAt g k with
        | ok e =>
          rw [ok_bind, ok_bind]
          split
          · rfl
          · exact orBelowAt_eq k
        | _ => rfl
    | _ => rfl

theorem orAboveAt_eq {g : List AEntry} : ∀ (fuel j : Nat), orAbove g fuel j = orAboveAt g fuel j >>= fun m => ok m.isSome
  | 0, _ => rfl
  | fuel + 1, j => by
    rw [orAbove, orAboveAt]
    cases entryAt g j with
    | ok e =>
      rw [ok_bind, ok_bind]
      split
      · rfl
      · cases entryAt g (j - 1) with
        | ok sep =>
          rw [ok_bind, ok_bind]
          split
          · rfl
          · split
            · rfl
            · split
              · rfl
              · exact orAboveAt_eq fuel (j + 2)
        | _ => rfl
    | _ => rfl

theorem orBelowAt_some {g : List AEntry} : ∀ {i j : Nat}, orBelowAt g i = ok (some j) → Alternatives g j i ∧ Given g j
  | 0, _, h => by rw [orBelowAt] at h; cases h; simp
  | 1, _, h => by rw [orBelowAt] at h; cases h; simp
  | k + 2, j, h => by
    rw [orBelowAt, bind_eq_ok] at h
    obtain ⟨sep, h1, h⟩ := h
    have h1 := entryAt_ok.mp h1
    split at h
    · cases h
    rename_i hor
    have hor : sep.short = 252 ∨ sep.short = 251 := by
      unfold isOr argvOr argvXor at hor
      exact Decidable.or_iff_not_imp_left.mpr (by simpa using hor)
    rw [bind_eq_ok] at h
    obtain ⟨x, hx, h⟩ := h
    split at h
    · rename_i hu
      cases h
      exact ⟨⟨1, by omega, by omega, fun t ht => by
        obtain rfl : t = 0 := by omega
        exact ⟨sep, h1, hor⟩⟩, x, entryAt_ok.mp hx, hu⟩
    · obtain ⟨⟨d, hd, hj, hs⟩, hg⟩ := orBelowAt_some h
      refine ⟨⟨d + 1, by omega, by omega, fun t ht => ?_⟩, hg⟩
      by_cases htd : t < d
      · exact hs t htd
      · rw [show j + 2 * t + 1 = k + 1 by omega]
        exact ⟨sep, h1, hor⟩

theorem orAboveAt_some {g : List AEntry} : ∀ {fuel j m : Nat}, 1 ≤ j → orAboveAt g fuel j = ok (some m) →
    ∃ d, m = j + 2 * d ∧ (∀ t ≤ d, ∃ e, g[j + 2 * t - 1]? = some e ∧ (e.short = 252 ∨ e.short = 251)) ∧ Given g m
  | 0, j, _, _, h => by rw [orAboveAt] at h; cases h
  | fuel + 1, j, m, hj, h => by
    rw [orAboveAt, bind_eq_ok] at h
    obtain ⟨x, hx, h⟩ := h
    split at h
    · cases h
    rw [bind_eq_ok] at h
    obtain ⟨sep, hs, h⟩ := h
    have hs := entryAt_ok.mp hs
    split at h
    · cases h
    split at h
    · cases h
    rename_i hor
    have hor : sep.short = 252 ∨ sep.short = 251 := by
      unfold isOr argvOr argvXor at hor
      exact Decidable.or_iff_not_imp_left.mpr (by simpa using hor)
    split at h
    · rename_i hu
      cases h
      refine ⟨0, rfl, fun t ht => ?_, x, entryAt_ok.mp hx, hu⟩
      obtain rfl : t = 0 := by omega
      exact ⟨sep, hs, hor⟩
    · obtain ⟨d, e1, e2, e3⟩ := orAboveAt_some (by omega) h
      refine ⟨d + 1, by omega, fun t ht => ?_, e3⟩
      cases t with
      | zero => exact ⟨sep, hs, hor⟩
      | succ t =>
        have := e2 t (by omega)
        rwa [show j + 2 + 2 * t - 1 = j + 2 * (t + 1) - 1 by omega] at this

theorem Alternatives.core {a b : List AEntry} (hc : coresOf a = coresOf b) {i j : Nat} (h : Alternatives a i j) : Alternatives b i j := by
  obtain ⟨d, h1, h2, h3⟩ := h
  refine ⟨d, h1, h2, fun t ht => ?_⟩
  obtain ⟨e, he, hs⟩ := h3 t ht
  obtain ⟨e0, k1, k2⟩ := entry_core hc he
  exact ⟨e0, k1, by rw [(core_fields k2).1]; exact hs⟩

theorem tellOr_spec {g' : List AEntry} (hc : coresOf g' = coresOf g) {i : Nat} (hi : i < g'.length) {b : Bool} (h : checkOr g' i = ok b) :
    ∃ t, tellOr v g' i = ok t ∧ (b = false ↔ t = []) ∧ Complaints v cfg g t := by
  unfold checkOr at h
  rw [orBelowAt_eq] at h
  unfold tellOr
  have hgi : g'[i]? = some g'[i] := List.getElem?_eq_getElem hi
  have fin : ∀ {j : Nat}, (Alternatives g' j i ∨ Alternatives g' i j) → Given g' j →
      ∃ t, (entryAt g' j >>= fun e => entryAt g' i >>= fun w => ok (usageProblem v (ascii "specify only one of the following:\n") ++
        optionLine e ++ (if j = i then [] else optionLine w))) = ok t ∧ (true = false ↔ t = []) ∧ Complaints v cfg g t := by
    rintro j ha ⟨e, he, -⟩
    rw [entryAt_ok.mpr he, ok_bind, entryAt_ok.mpr hgi, ok_bind]
    have hne : j ≠ i := by
      rcases ha with ⟨d, h1, h2, -⟩ | ⟨d, h1, h2, -⟩ <;> omega
    rw [if_neg hne]
    refine ⟨_, rfl, by simp [usageProblem, ascii], ?_⟩
    obtain ⟨e0, k1, k2⟩ := entry_core hc he
    obtain ⟨w0, k3, k4⟩ := entry_core hc hgi
    rw [optionLine_eq, optionLine_eq, ← listed_core k2, ← listed_core k4]
    have := Complaint.onlyOne (v := v) (cfg := cfg) (ha.imp (Alternatives.core hc) (Alternatives.core hc)) k1 k3
    unfold usageProblem
    rw [show ascii ": usage problem, specify only one of the following:\n" =
      ascii ": usage problem, " ++ ascii "specify only one of the following:\n" by decide] at this
    simpa only [List.append_assoc] using this.one
  cases hb : orBelowAt g' i with
  | ok m =>
    rw [hb, ok_bind] at h
    rw [ok_bind]
    cases m with
    | some j =>
      rw [ok_bind]
      simp only [Option.isSome_some, if_true] at h
      cases h
      have := orBelowAt_some hb
      exact fin (.inl this.1) this.2
    | none =>
      simp only [ok_bind, Option.isSome_none, Bool.false_eq_true, if_false] at h
      rw [orAboveAt_eq] at h
      dsimp only
      cases ha : orAboveAt g' (g'.length + 1) (i + 2) with
      | ok m =>
        rw [ha, ok_bind] at h
        rw [ok_bind]
        cases h
        cases m with
        | none => exact ⟨[], rfl, by simp, .nil⟩
        | some j =>
          obtain ⟨d, e1, e2, e3⟩ := orAboveAt_some (by omega) ha
          refine fin (.inr ⟨d + 1, by omega, by omega, fun t ht => ?_⟩) e3
          have := e2 t (by omega)
          rwa [show i + 2 + 2 * t - 1 = i + 2 * t + 1 by omega] at this
      | _ => rw [ha] at h; cases h
  | _ => rw [hb] at h; cases h

theorem tellType_spec {g' : List AEntry} (hc : coresOf g' = coresOf g) {e : AEntry} {i : Nat} (he : g'[i]? = some e) :
    ((e.ty = 0 ∨ e.ty > 22) ↔ tellType v e.ty ≠ []) ∧ Complaints v cfg g (tellType v e.ty) := by
  obtain ⟨e0, k1, k2⟩ := entry_core hc he
  have hty := (core_fields k2).2.2.1
  unfold tellType
  split
  · rename_i h
    refine ⟨by simp [h], ?_⟩
    rw [fmtU_eq, ← hty]
    exact (Complaint.noType k1 (by rw [hty]; exact h)).one
  · rename_i h
    exact ⟨by simp [h], .nil⟩

/-- `string_to_value` fails exactly if it writes something. -/
theorem stringToValue_tell {g' : List AEntry} (hc : coresOf g' = coresOf g) {e : AEntry} {i : Nat} (he : g'[i]? = some e)
    {a : Option (List UInt8)} {r : Bool × AEntry} (h : stringToValue cfg a e = ok r) :
    (r.1 = true ↔ tellType v e.ty = []) ∧ Complaints v cfg g (tellType v e.ty) := by
  obtain ⟨h1, h2⟩ := tellType_spec (v := v) (cfg := cfg) hc he
  refine ⟨?_, h2⟩
  unfold stringToValue at h
  split at h
  · rename_i hb
    cases h
    simp [h1.mp hb]
  · rename_i hb
    have h3 : tellType v e.ty = [] := Decidable.not_not.mp (mt h1.mpr hb)
    rw [h3]
    split at h
    · rw [bind_eq_ok] at h
      obtain ⟨x, -, h⟩ := h
      cases h; simp
    · rw [bind_eq_ok] at h
      obtain ⟨x, -, h⟩ := h
      cases h; simp
    · cases h

theorem tArg_spec {i : Nat} (hi : i < lastIdx g) (close : Option (List UInt8)) {s : AState} (hc : coresOf s.grid = coresOf g) :
    ToldAs v cfg g s.okay (tArg v cfg i close s) (doArg cfg i close s) := by
  have key : ∀ s', doArg cfg i close s = ok s' → ∃ t, tellArg v cfg i close s = ok t ∧ coresOf s'.grid = coresOf g ∧
      (s'.okay = true ↔ s.okay = true ∧ t = []) ∧ Complaints v cfg g t := by
    intro s' h
    have hcore : coresOf s'.grid = coresOf g := (shape_inv cfg (coresOf g)).arg i close s s' hc h
    unfold doArg at h
    rw [bind_eq_ok] at h
    obtain ⟨e, he, h⟩ := h
    dsimp only at h
    rw [bind_eq_ok] at h
    obtain ⟨clash, hcl, h⟩ := h
    have he := entryAt_ok.mp he
    have hlen : i < s.grid.length := (List.getElem?_eq_some_iff.mp he).1
    have hc1 : coresOf (s.grid.set i { e with used := true }) = coresOf g := by
      rw [set_coresOf he (by rfl)]; exact hc
    obtain ⟨t, ht, hb, hcm⟩ := tellOr_spec (v := v) (cfg := cfg) hc1 (by simpa using hlen) hcl
    unfold tellArg
    rw [entryAt_ok.mpr he, ok_bind, ht, ok_bind]
    refine ⟨_, rfl, hcore, ?_⟩
    obtain ⟨e0, k1, k2⟩ := entry_core hc he
    obtain ⟨c1, c2, c3, c4, c5⟩ := core_fields k2
    have twice : ∀ b : Bool, b = (!cfg.multiAccept && e.used && !e.array && e.ty ≠ 17) →
        ((!b) = true ↔ (if b then usageProblem v (ascii "you've already specified the '" ++ [e.short] ++ ascii "' argument\n") else []) = []) ∧
        Complaints v cfg g (if b then usageProblem v (ascii "you've already specified the '" ++ [e.short] ++ ascii "' argument\n") else []) := by
      intro b hb
      cases b with
      | false => exact ⟨by simp, .nil⟩
      | true =>
        refine ⟨by simp [usageProblem, ascii], ?_⟩
        simp only [Bool.true_eq, Bool.and_eq_true, Bool.not_eq_true'] at hb
        have := Complaint.twice (v := v) (cfg := cfg) ⟨hi, k1⟩ (by rw [c4]; exact hb.1.2) hb.1.1.1
        rw [c1, show ascii ": usage problem, you've already specified the '" = ascii ": usage problem, " ++ ascii "you've already specified the '" by decide] at this
        rw [if_pos rfl]
        unfold usageProblem
        simpa only [List.append_assoc] using this.one
    obtain ⟨tw1, tw2⟩ := twice _ rfl
    have okk : ∀ {x : Bool} {u : List UInt8}, (x = true ↔ u = []) →
        (((s.okay && !(!cfg.multiAccept && e.used && !e.array && e.ty ≠ 17) && !clash) && x) = true ↔ s.okay = true ∧
        (if (!cfg.multiAccept && e.used && !e.array && e.ty ≠ 17) = true then
          usageProblem v (ascii "you've already specified the '" ++ [e.short] ++ ascii "' argument\n") else []) ++ t ++ u = []) := by
      intro x u hx
      rw [Bool.and_eq_true, Bool.and_eq_true, Bool.and_eq_true, tw1, hx, List.append_eq_nil_iff, List.append_eq_nil_iff,
        show ((!clash) = true ↔ t = []) by rw [← hb]; simp, and_assoc, and_assoc, and_assoc]
    by_cases hv : close.isSome ∨ !hasArg e.ty
    · rw [if_pos hv] at h
      rw [bind_eq_ok] at h
      obtain ⟨r, hr, h⟩ := h
      cases h
      have hge : (s.grid.set i { e with used := true })[i]? = some { e with used := true } := by
        rw [List.getElem?_set_self hlen]
      obtain ⟨q1, q2⟩ := stringToValue_tell (v := v) hc1 hge hr
      rw [if_pos hv]
      refine ⟨?_, (tw2.append hcm).append q2⟩
      exact okk q1
    · rw [if_neg hv] at h
      rw [if_neg hv]
      refine ⟨?_, (tw2.append hcm).append .nil⟩
      have := okk (x := true) (u := []) (by simp)
      rw [Bool.and_true] at this
      split at h
      · cases h; exact this
      · cases h
  unfold tArg
  cases hd : doArg cfg i close s with
  | ok s' =>
    obtain ⟨t, h1, h2, h3, h4⟩ := key s' hd
    rw [ok_bind, h1, ok_bind]
    exact .ok h2 h3 h4
  | err r => exact .err r
  | ub => exact .ub
  | hang => exact .hang
  | abort => exact .abort

/-! ### Long options -/

theorem entryIs_cons {e x : AEntry} {es : List AEntry} {j : Nat} (hx : x.short ≠ argvLast) : EntryIs (x :: es) (j + 1) e ↔ EntryIs es j e := by
  unfold EntryIs
  rw [lastIdx_cons, if_neg hx, List.getElem?_cons_succ, Nat.add_lt_add_iff_right]

theorem twoNames_spec {rest : List UInt8} : ∀ {es : List AEntry} {k : Nat} {m : Option Nat} {ml : Option (List UInt8)},
    longLoop rest es k m = ok .two → (m.isSome = ml.isSome) → ∃ l l' j e', twoNames rest es ml = some (l, l') ∧ EntryIs es j e' ∧
      e'.long = some l ∧ rest <+: l ∧ (ml = some l' ∨ ∃ i e, i < j ∧ EntryIs es i e ∧ e.long = some l' ∧ rest <+: l')
  | [], _, _, _, h, _ => by rw [longLoop] at h; cases h
  | x :: xs, k, m, ml, h, hm => by
    rw [longLoop.eq_def] at h
    dsimp only at h
    rw [twoNames]
    by_cases hx : x.short = argvLast
    · rw [if_pos hx] at h
      cases m <;> cases h
    · rw [if_neg hx] at h
      rw [if_neg hx]
      have step : ∀ {m : Option Nat} {ml' : Option (List UInt8)}, longLoop rest xs (k + 1) m = ok .two → m.isSome = ml'.isSome →
          (ml' = ml ∨ (ml = none ∧ ∃ l', ml' = some l' ∧ x.long = some l' ∧ rest <+: l')) →
          ∃ l l' j e', twoNames rest xs ml' = some (l, l') ∧ EntryIs (x :: xs) j e' ∧
          e'.long = some l ∧ rest <+: l ∧ (ml = some l' ∨ ∃ i e, i < j ∧ EntryIs (x :: xs) i e ∧ e.long = some l' ∧ rest <+: l') := by
        intro m ml' h1 h2 h3
        obtain ⟨l, l', j, e', a1, a2, a3, a4, a5⟩ := twoNames_spec h1 h2
        refine ⟨l, l', j + 1, e', a1, (entryIs_cons hx).mpr a2, a3, a4, ?_⟩
        rcases a5 with a5 | ⟨i, e, b1, b2, b3, b4⟩
        · rcases h3 with rfl | ⟨-, y, h4, h5, h6⟩
          · exact .inl a5
          · rw [a5] at h4
            cases h4
            exact .inr ⟨0, x, by omega, ⟨by rw [lastIdx_cons, if_neg hx]; omega, rfl⟩, h5, h6⟩
        · exact .inr ⟨i + 1, e, by omega, (entryIs_cons hx).mpr b2, b3, b4⟩
      cases hlong : x.long with
      | none =>
        have : longMatches rest x = false := by unfold longMatches; rw [hlong]
        rw [this, if_neg (by decide)] at h
        exact step h hm (.inl rfl)
      | some l =>
        have hlm : longMatches rest x = rest.isPrefixOf l := by unfold longMatches; rw [hlong]
        rw [hlm] at h
        dsimp only
        by_cases hp : rest.isPrefixOf l = true
        · rw [if_pos hp] at h ⊢
          have hpp : rest <+: l := List.isPrefixOf_iff_prefix.mp hp
          cases m with
          | some m0 =>
            cases ml with
            | none => cases hm
            | some l' => exact ⟨l, l', 0, x, rfl, ⟨by rw [lastIdx_cons, if_neg hx]; omega, rfl⟩, hlong, hpp, .inl rfl⟩
          | none =>
            cases ml with
            | some l' => cases hm
            | none => exact step h rfl (.inr ⟨rfl, l, rfl, hlong, hpp⟩)
        · rw [if_neg hp] at h ⊢
          exact step h hm (.inl rfl)

theorem longLoop_no {rest : List UInt8} : ∀ {es : List AEntry} {k : Nat} {m : Option Nat}, longLoop rest es k m = ok .no →
    m = none ∧ ∀ i e l, EntryIs es i e → e.long = some l → ¬ rest <+: l
  | [], _, _, h => by rw [longLoop] at h; cases h
  | x :: xs, k, m, h => by
    rw [longLoop.eq_def] at h
    dsimp only at h
    by_cases hx : x.short = argvLast
    · rw [if_pos hx] at h
      refine ⟨by cases m <;> [rfl; cases h], fun i e l he => ?_⟩
      have := he.1
      rw [lastIdx_cons, if_pos hx] at this
      omega
    · rw [if_neg hx] at h
      by_cases hm : longMatches rest x = true
      · rw [if_pos hm] at h
        cases m with
        | some m0 => cases h
        | none => cases (longLoop_no h).1
      · rw [if_neg hm] at h
        obtain ⟨h1, h2⟩ := longLoop_no h
        refine ⟨h1, fun i e l he hl hp => ?_⟩
        cases i with
        | zero =>
          have := he.2
          simp at this
          subst this
          apply hm
          unfold longMatches
          rw [hl]
          exact List.isPrefixOf_iff_prefix.mpr hp
        | succ i => exact h2 i e l ((entryIs_cons hx).mp he) hl hp

theorem longLoop_found_lt {rest : List UInt8} {es : List AEntry} (hl : lastIdx es < es.length) {i : Nat} (h : longLoop rest es 0 none = ok (.found i)) :
    i < lastIdx es := by
  rcases longLoop_total (rest := rest) 0 none hl with h1 | ⟨k, h1, h2 | h2⟩ | h1
  · rw [h] at h1; cases h1
  · cases h2
  · rw [h] at h1; cases h1; omega
  · rw [h] at h1; cases h1

theorem EntryIs.core {a b : List AEntry} (hc : coresOf a = coresOf b) {i : Nat} {e : AEntry} (h : EntryIs a i e) :
    ∃ e0, EntryIs b i e0 ∧ coreOf e0 = coreOf e := by
  obtain ⟨e0, k1, k2⟩ := entry_core hc h.2
  exact ⟨e0, ⟨by rw [← lastIdx_core hc]; exact h.1, k1⟩, k2⟩

theorem punch_long {a : List UInt8} (h : a.take 2 = ascii "--") : ∃ w, punch cfg a = ascii "--" ++ w ∧ (punch cfg a).drop 2 = w := by
  have e : ascii "--" = [45, 45] := by decide
  rw [e] at h ⊢
  match a, h with
  | x :: y :: r, h =>
    simp only [List.take_succ_cons, List.take_zero, List.cons.injEq] at h
    obtain ⟨rfl, rfl, -⟩ := h
    unfold punch
    split
    · exact ⟨r.takeWhile (· ≠ 61), by rfl, by rfl⟩
    · exact ⟨r, rfl, rfl⟩

theorem punch_short {a : List UInt8} (h : a.take 1 = ascii "-") : ∃ w, punch cfg a = ascii "-" ++ w ∧ (punch cfg a).drop 1 = w := by
  have e : ascii "-" = [45] := by decide
  rw [e] at h ⊢
  match a, h with
  | x :: r, h =>
    simp only [List.take_succ_cons, List.take_zero, List.cons.injEq] at h
    obtain ⟨rfl, -⟩ := h
    unfold punch
    split
    · exact ⟨r.takeWhile (· ≠ 61), by rfl, by rfl⟩
    · exact ⟨r, rfl, rfl⟩

/-- A message that makes the line unacceptable. -/
theorem toldAs_bad {s : AState} (hc : coresOf s.grid = coresOf g) {t : List UInt8} (b : Bool) (h : Complaint v cfg g t) (hn : t ≠ []) :
    ToldAs v cfg g b (ok ({ s with okay := false }, t)) (ok { s with okay := false }) :=
  .ok hc (by simp [hn]) h.one

theorem toldAs_quiet {s : AState} (hc : coresOf s.grid = coresOf g) : ToldAs v cfg g s.okay (ok (s, [])) (ok s) :=
  .ok hc (by simp) .nil

theorem tLong_spec (hl : lastIdx g < g.length) {TK : List UInt8 → AState → Outcome (AState × List UInt8)} {DK : List UInt8 → AState → Outcome AState}
    (hK : ∀ path s, coresOf s.grid = coresOf g → ToldAs v cfg g s.okay (TK path s) (DK path s)) {a : List UInt8} (ha : a.take 2 = ascii "--")
    {s : AState} (hc : coresOf s.grid = coresOf g) : ToldAs v cfg g s.okay (tLong v cfg TK a s) (doLong cfg DK a s) := by
  obtain ⟨w, hw, hd⟩ := punch_long (cfg := cfg) ha
  have hlen : s.grid.length = g.length := by simpa [coresOf] using congrArg List.length hc
  have hls : lastIdx s.grid < s.grid.length := by rw [lastIdx_core hc, hlen]; exact hl
  unfold tLong doLong
  dsimp only
  rw [hd, hw]
  by_cases h0 : w = []
  · rw [if_pos h0, if_pos h0]
    refine toldAs_bad hc _ ?_ (by simp [usageProblem, ascii])
    subst h0
    have := Complaint.emptyLong (v := v) (cfg := cfg) (g := g)
    rw [show ascii ": usage problem, empty long-option prefix '--'\n" = ascii ": usage problem, " ++ (ascii "empty long-option prefix '" ++
      (ascii "--" ++ []) ++ ascii "'\n") by decide] at this
    unfold usageProblem
    simpa only [List.append_assoc] using this
  · rw [if_neg h0, if_neg h0]
    cases hr : longLoop w s.grid 0 none with
    | err r => exact .err r
    | ub => exact .ub
    | hang => exact .hang
    | abort => exact .abort
    | ok r =>
      rw [ok_bind, ok_bind]
      cases r with
      | two =>
        dsimp only
        obtain ⟨l, l', j, e', a1, a2, a3, a4, a5⟩ := twoNames_spec (ml := none) hr rfl
        rw [a1]
        dsimp only
        rcases a5 with a5 | ⟨i, e, b1, b2, b3, b4⟩
        · cases a5
        · refine toldAs_bad hc _ ?_ (by simp [usageProblem, ascii])
          obtain ⟨e0, k1, k2⟩ := EntryIs.core hc b2
          obtain ⟨e1, k3, k4⟩ := EntryIs.core hc a2
          have := Complaint.ambiguous (v := v) (cfg := cfg) b1 k1 k3 (by rw [(core_fields k2).2.1]; exact b3)
            (by rw [(core_fields k4).2.1]; exact a3) b4 a4
          rw [show ascii ": usage problem, '--" = ascii ": usage problem, " ++ (ascii "'" ++ ascii "--") by decide] at this
          unfold usageProblem
          simpa only [List.append_assoc] using this
      | found i =>
        dsimp only
        exact tArg_spec (by rw [← lastIdx_core hc]; exact longLoop_found_lt hls hr) _ hc
      | no =>
        dsimp only
        split
        · cases closeText cfg a with
          | some path => exact hK path s hc
          | none =>
            dsimp only
            split
            · exact .ok hc (by simp) .nil
            · exact .ub
        · split
          · exact toldAs_quiet hc
          · refine toldAs_bad hc _ ?_ (by simp [usageProblem, ascii])
            have := Complaint.unknownLong (v := v) (cfg := cfg) (g := g) (w := w) (by
              intro i e l he hle hp
              obtain ⟨e0, k1, k2⟩ := EntryIs.core hc.symm he
              exact (longLoop_no hr).2 i e0 l k1 (by rw [(core_fields k2).2.1]; exact hle) hp)
            rw [show ascii ": usage problem, unknown long option '--" = ascii ": usage problem, " ++ (ascii "unknown long option '" ++ ascii "--") by decide] at this
            unfold usageProblem
            simpa only [List.append_assoc] using this

/-! ### Short options -/

theorem unknownShort_eq {c : UInt8} (h : ∀ i e, EntryIs g i e → e.short ≠ c) : Complaint v cfg g (unknownShort v c) := by
  have := Complaint.unknownShort (v := v) (cfg := cfg) h
  rw [show ascii ": usage problem, unknown short option '-" = ascii ": usage problem, " ++ ascii "unknown short option '-" by decide] at this
  unfold unknownShort usageProblem
  simpa only [List.append_assoc] using this

theorem tCluster_spec (hl : lastIdx g < g.length) (full : List UInt8) (close : Option (List UInt8)) : ∀ (cs : List UInt8) (first : Bool) {s : AState},
    coresOf s.grid = coresOf g → ToldAs v cfg g s.okay (tCluster v cfg full close cs first s) (clusterLoop cfg full close cs first s)
  | [], first, s, hc => by rw [tCluster, clusterLoop]; exact toldAs_quiet hc
  | c :: cs, first, s, hc => by
    have hlen : s.grid.length = g.length := by simpa [coresOf] using congrArg List.length hc
    have hls : lastIdx s.grid < s.grid.length := by rw [lastIdx_core hc, hlen]; exact hl
    rw [tCluster.eq_def, clusterLoop.eq_def]
    dsimp only
    rcases scanGrid_total (p := fun e => decide (e.short = c)) 0 hls with ⟨k, e, h1, h2, -⟩ | ⟨h1, h2⟩
    · rw [h1, ok_bind, ok_bind]
      dsimp only
      refine ToldAs.bind (F := fun s => tCluster v cfg full close cs false s) (tArg_spec ?_ close hc) (fun s hs => tCluster_spec hl full close cs false hs)
      rw [← lastIdx_core hc]; omega
    · rw [h1, ok_bind, ok_bind]
      dsimp only
      have hun : Complaint v cfg g (unknownShort v c) := by
        refine unknownShort_eq fun i e he hs => ?_
        obtain ⟨e0, k1, k2⟩ := EntryIs.core hc.symm he
        have := h2 i k1.1 e0 k1.2
        simp [(core_fields k2).1, hs] at this
      have bad : ToldAs v cfg g s.okay (tCluster v cfg full close cs false { s with okay := false } >>= fun q => ok (q.1, unknownShort v c ++ q.2))
          (clusterLoop cfg full close cs false { s with okay := false }) :=
        ToldAs.bad (F := fun s => tCluster v cfg full close cs false s) (s := { s with okay := false }) _ hun
          (by simp [unknownShort, usageProblem, ascii]) rfl (tCluster_spec hl full close cs false (s := { s with okay := false }) hc)
      split
      · exact tCluster_spec hl full close cs false hc
      · split
        · cases hq : s.queue[s.tail]? with
          | none => exact .ub
          | some o =>
            cases o with
            | none => exact .ub
            | some i =>
              dsimp only
              cases he : entryAt s.grid i with
              | err r => exact .err r
              | ub => exact .ub
              | hang => exact .hang
              | abort => exact .abort
              | ok e =>
                rw [ok_bind, ok_bind]
                split
                · rename_i hty
                  cases hr : stringToValue cfg (some full) e with
                  | err r => exact .err r
                  | ub => exact .ub
                  | hang => exact .hang
                  | abort => exact .abort
                  | ok r =>
                    rw [ok_bind, ok_bind]
                    have ht : tellType v e.ty = [] := by
                      unfold tellType
                      rw [if_neg (by omega)]
                    rw [ht]
                    refine .ok ?_ (by simp) .nil
                    show coresOf (s.grid.set i r.2) = _
                    rw [set_coresOf (entryAt_ok.mp he) (by
                      obtain ⟨x, hx⟩ := stringToValue_core hr
                      rw [hx]; rfl)]
                    exact hc
                · exact bad
        · exact bad

theorem tShort_spec (hl : lastIdx g < g.length) {a : List UInt8} (ha : a.take 1 = ascii "-") {s : AState} (hc : coresOf s.grid = coresOf g) :
    ToldAs v cfg g s.okay (tShort v cfg a s) (doShort cfg a s) := by
  obtain ⟨w, hw, hd⟩ := punch_short (cfg := cfg) ha
  unfold tShort doShort
  dsimp only
  rw [hd]
  by_cases h0 : w = []
  · rw [if_pos h0, if_pos h0]
    refine toldAs_bad hc _ ?_ (by simp [usageProblem, ascii])
    rw [hw]
    subst h0
    have := Complaint.emptyShort (v := v) (cfg := cfg) (g := g)
    rw [show ascii ": usage problem, empty short-option prefix '-'\n" = ascii ": usage problem, " ++ (ascii "empty short-option prefix '" ++
      (ascii "-" ++ []) ++ ascii "'\n") by decide] at this
    unfold usageProblem
    simpa only [List.append_assoc] using this
  · rw [if_neg h0, if_neg h0]
    exact tCluster_spec hl _ _ _ _ hc

/-! ### Values and lists -/

/-- See `ToldAs`; for an argument nobody asked for nothing is written yet. -/
inductive ToldV (v : Voice) (cfg : ACfg) (g : List AEntry) (b : Bool) : Outcome (AState × List UInt8 × Nat) → Outcome AState → Prop
  | ok {s : AState} {t : List UInt8} : coresOf s.grid = coresOf g → (s.okay = true ↔ b = true ∧ t = []) → Complaints v cfg g t →
      ToldV v cfg g b (ok (s, t, 0)) (ok s)
  | unwanted {s : AState} : coresOf s.grid = coresOf g → s.okay = false → ToldV v cfg g b (ok (s, [], 1)) (ok s)
  | err (r : Res) : ToldV v cfg g b (err r) (err r)
  | ub : ToldV v cfg g b ub ub
  | hang : ToldV v cfg g b hang hang
  | abort : ToldV v cfg g b abort abort

theorem toldV_value {s : AState} (hc : coresOf s.grid = coresOf g) (i : Nat) (a : List UInt8) (f : AEntry → AEntry) (tail : Nat)
    (hf : ∀ e, coreOf (f e) = coreOf e) :
    ToldV v cfg g s.okay
      (entryAt s.grid i >>= fun e => stringToValue cfg (some a) e >>= fun r =>
        ok ({ s with grid := s.grid.set i (f r.2), tail := tail, okay := s.okay && r.1 }, tellType v e.ty, 0))
      (entryAt s.grid i >>= fun e => stringToValue cfg (some a) e >>= fun r =>
        ok { s with grid := s.grid.set i (f r.2), tail := tail, okay := s.okay && r.1 }) := by
  cases he : entryAt s.grid i with
  | err r => exact .err r
  | ub => exact .ub
  | hang => exact .hang
  | abort => exact .abort
  | ok e =>
    rw [ok_bind, ok_bind]
    cases hr : stringToValue cfg (some a) e with
    | err r => exact .err r
    | ub => exact .ub
    | hang => exact .hang
    | abort => exact .abort
    | ok r =>
      rw [ok_bind, ok_bind]
      have he := entryAt_ok.mp he
      obtain ⟨h1, h2⟩ := stringToValue_tell (v := v) hc he hr
      refine .ok ?_ ?_ h2
      · show coresOf (s.grid.set i (f r.2)) = _
        rw [set_coresOf he (by
          obtain ⟨x, hx⟩ := stringToValue_core hr
          rw [hf, hx]; rfl)]
        exact hc
      · show (s.okay && r.1) = true ↔ _
        rw [Bool.and_eq_true, h1]

theorem tValue_spec {TK : List UInt8 → AState → Outcome (AState × List UInt8)} {DK : List UInt8 → AState → Outcome AState}
    (hK : ∀ path s, coresOf s.grid = coresOf g → ToldAs v cfg g s.okay (TK path s) (DK path s)) (a : List UInt8)
    {s : AState} (hc : coresOf s.grid = coresOf g) : ToldV v cfg g s.okay (tValue v cfg TK a s) (doValue cfg DK a s) := by
  unfold tValue doValue
  cases entryAt s.grid 0 with
  | err r => exact .err r
  | ub => exact .ub
  | hang => exact .hang
  | abort => exact .abort
  | ok e0 =>
    rw [ok_bind, ok_bind]
    split
    · cases s.queue[s.tail]? with
      | none => exact .ub
      | some o =>
        cases o with
        | none =>
          dsimp only
          have := hK a { s with tail := s.tail + 1 } hc
          generalize TK a { s with tail := s.tail + 1 } = T at this ⊢
          generalize DK a { s with tail := s.tail + 1 } = D at this ⊢
          cases this with
          | ok h1 h2 h3 => exact .ok h1 h2 h3
          | err r => exact .err r
          | ub => exact .ub
          | hang => exact .hang
          | abort => exact .abort
        | some i => exact toldV_value hc i a (fun e => e) _ (fun e => rfl)
    · cases scanGrid (fun e => e.short = argvMand && (!e.used || e.array)) s.grid 0 with
      | err r => exact .err r
      | ub => exact .ub
      | hang => exact .hang
      | abort => exact .abort
      | ok m =>
        rw [ok_bind, ok_bind]
        cases m with
        | some i => exact toldV_value hc i a (fun e => { e with used := true }) s.tail (fun e => rfl)
        | none =>
          dsimp only
          cases scanGrid (fun e => e.short = argvMaybe && (!e.used || e.array)) s.grid 0 with
          | err r => exact .err r
          | ub => exact .ub
          | hang => exact .hang
          | abort => exact .abort
          | ok m =>
            rw [ok_bind, ok_bind]
            cases m with
            | some i => exact toldV_value hc i a (fun e => { e with used := true }) s.tail (fun e => rfl)
            | none => exact .unwanted hc rfl

/-- See `ToldAs`; `n` is the number of arguments nobody asked for so far. -/
inductive ToldL (v : Voice) (cfg : ACfg) (g : List AEntry) (b : Bool) (n : Nat) :
    Outcome (AState × List (List UInt8) × List UInt8) → Outcome (AState × List (List UInt8)) → Prop
  | ok {s : AState} {as : List (List UInt8)} {t : List UInt8} : coresOf s.grid = coresOf g → (n = 0 → (s.okay = true ↔ b = true ∧ t = [])) →
      (0 < n → s.okay = false ∧ t ≠ []) → Complaints v cfg g t → ToldL v cfg g b n (ok (s, as, t)) (ok (s, as))
  | err (r : Res) : ToldL v cfg g b n (err r) (err r)
  | ub : ToldL v cfg g b n ub ub
  | hang : ToldL v cfg g b n hang hang
  | abort : ToldL v cfg g b n abort abort

theorem ToldL.cons {b : Bool} {n : Nat} {T : Outcome (AState × List (List UInt8) × List UInt8)} {D : Outcome (AState × List (List UInt8))}
    (h : ToldL v cfg g b n T D) (w : List UInt8) :
    ToldL v cfg g b n (T >>= fun r => Outcome.ok (r.1, w :: r.2.1, r.2.2)) (D >>= fun r => Outcome.ok (r.1, w :: r.2)) := by
  cases h with
  | ok h1 h2 h3 h4 => exact .ok h1 h2 h3 h4
  | err r => exact .err r
  | ub => exact .ub
  | hang => exact .hang
  | abort => exact .abort

theorem ToldL.bind {b : Bool} {n : Nat} (hb : 0 < n → b = false) {T : Outcome (AState × List UInt8)} {D : Outcome AState} (h : ToldAs v cfg g b T D)
    {F : AState → Outcome (AState × List (List UInt8) × List UInt8)} {G : AState → Outcome (AState × List (List UInt8))}
    (hk : ∀ s, coresOf s.grid = coresOf g → (0 < n → s.okay = false) → ToldL v cfg g s.okay n (F s) (G s)) (w : List UInt8) :
    ToldL v cfg g b n (T >>= fun q => F q.1 >>= fun r => Outcome.ok (r.1, w :: r.2.1, q.2 ++ r.2.2))
      (D >>= fun s => G s >>= fun r => Outcome.ok (r.1, w :: r.2)) := by
  cases h with
  | err r => exact .err r
  | ub => exact .ub
  | hang => exact .hang
  | abort => exact .abort
  | @ok s t hc ho ht =>
    rw [ok_bind, ok_bind]
    have := hk s hc (fun hn => by
      cases hs : s.okay with
      | false => rfl
      | true => rw [hb hn] at ho; exact absurd (ho.mp hs).1 (by decide))
    generalize F s = f at this ⊢
    generalize G s = d at this ⊢
    cases this with
    | err r => exact .err r
    | ub => exact .ub
    | hang => exact .hang
    | abort => exact .abort
    | ok hc' ho' hn' ht' =>
      refine .ok hc' (fun h0 => ?_) (fun hn => ⟨(hn' hn).1, ?_⟩) (ht.append ht')
      · rw [ho' h0, ho, List.append_eq_nil_iff, and_assoc]
      · intro he
        exact (hn' hn).2 (List.append_eq_nil_iff.mp he).2

theorem tellUnwanted_spec {n : Nat} (h : 0 < n) : Complaint v cfg g (tellUnwanted v n) ∧ tellUnwanted v n ≠ [] := by
  unfold tellUnwanted
  rw [if_pos h, fmtU_eq]
  refine ⟨?_, by simp [usageProblem, ascii]⟩
  have := Complaint.unwanted (v := v) (cfg := cfg) (g := g) h
  unfold usageProblem
  rw [show pluralS n = ending n from rfl]
  simpa only [List.append_assoc] using this

theorem tList_spec (hl : lastIdx g < g.length) {TK : List UInt8 → AState → Outcome (AState × List UInt8)} {DK : List UInt8 → AState → Outcome AState}
    (hK : ∀ path s, coresOf s.grid = coresOf g → ToldAs v cfg g s.okay (TK path s) (DK path s)) : ∀ (as : List (List UInt8)) (last : Bool) (n : Nat)
    {s : AState}, coresOf s.grid = coresOf g → (0 < n → s.okay = false) →
    ToldL v cfg g s.okay n (tList v cfg TK as last n s) (doList cfg DK as last s)
  | [], last, n, s, hc, hn => by
    rw [tList, doList]
    by_cases h0 : 0 < n
    · obtain ⟨h1, h2⟩ := tellUnwanted_spec (v := v) (cfg := cfg) (g := g) h0
      exact .ok hc (fun h => absurd h (by omega)) (fun h => ⟨hn h, h2⟩) h1.one
    · have : tellUnwanted v n = [] := by unfold tellUnwanted; rw [if_neg h0]
      rw [this]
      exact .ok hc (fun _ => by simp) (fun h => absurd h h0) .nil
  | a :: as, last, n, s, hc, hn => by
    rw [tList, doList]
    split
    · exact (tList_spec hl hK as false n hc hn).cons a
    · split
      · exact (tList_spec hl hK as true n hc hn).cons a
      · split
        · rename_i h2
          exact ToldL.bind hn (tLong_spec hl hK h2.2 hc) (F := fun s => tList v cfg TK as last n s) (G := fun s => doList cfg DK as last s)
            (fun s hs hns => tList_spec hl hK as last n hs hns) _
        · split
          · rename_i h2
            exact ToldL.bind hn (tShort_spec hl h2.2.1 hc) (F := fun s => tList v cfg TK as last n s) (G := fun s => doList cfg DK as last s)
              (fun s hs hns => tList_spec hl hK as last n hs hns) _
          · have hv := tValue_spec hK a hc
            generalize tValue v cfg TK a s = T at hv ⊢
            generalize doValue cfg DK a s = D at hv ⊢
            cases hv with
            | err r => exact .err r
            | ub => exact .ub
            | hang => exact .hang
            | abort => exact .abort
            | @ok s' t h1 h2 h3 =>
              exact ToldL.bind hn (ToldAs.ok h1 h2 h3) (F := fun s => tList v cfg TK as last (n + 0) s) (G := fun s => doList cfg DK as last s)
                (fun s hs hns => tList_spec hl hK as last n hs hns) a
            | @unwanted s' h1 h2 =>
              have := tList_spec hl hK as last (n + 1) h1 (fun _ => h2)
              rw [ok_bind, ok_bind]
              dsimp only
              generalize tList v cfg TK as last (n + 1) s' = f at this ⊢
              generalize doList cfg DK as last s' = d at this ⊢
              cases this with
              | err r => exact .err r
              | ub => exact .ub
              | hang => exact .hang
              | abort => exact .abort
              | ok k1 k2 k3 k4 =>
                obtain ⟨k5, k6⟩ := k3 (by omega)
                refine .ok k1 (fun _ => ?_) (fun _ => ⟨k5, by simpa using k6⟩) (by simpa using k4)
                rw [k5]
                simp [k6]

theorem tFile_spec (hl : lastIdx g < g.length) : ∀ (n : Nat) (path : List UInt8) (s : AState), coresOf s.grid = coresOf g →
    ToldAs v cfg g s.okay (tFile v cfg n path s) (fileArgs cfg n path s)
  | 0, path, s, hc => by rw [tFile, fileArgs]; exact .hang
  | n + 1, path, s, hc => by
    have lists : ∀ (ls : List (List UInt8)) {s0 : AState} (f : AState → AState), coresOf s0.grid = coresOf g → (∀ s, (f s).grid = s.grid) → (∀ s, (f s).okay = s.okay) →
        ToldAs v cfg g s0.okay (tList v cfg (tFile v cfg n) ls false 0 s0 >>= fun r => ok (f r.1, r.2.2))
          (doList cfg (fileArgs cfg n) ls false s0 >>= fun r => ok (f r.1)) := by
      intro ls s0 f h0 hg hok
      have := tList_spec hl (fun path s hs => tFile_spec hl n path s hs) ls false 0 h0 (by omega)
      generalize tList v cfg (tFile v cfg n) ls false 0 s0 = T at this ⊢
      generalize doList cfg (fileArgs cfg n) ls false s0 = D at this ⊢
      cases this with
      | err r => exact .err r
      | ub => exact .ub
      | hang => exact .hang
      | abort => exact .abort
      | ok h1 h2 h3 h4 => exact .ok (by rw [hg]; exact h1) (by rw [hok]; exact h2 rfl) h4
    rw [tFile.eq_def, fileArgs.eq_def]
    dsimp only
    have nofile : Complaint v cfg g (tellFile v path) := .noFile
    have hne : tellFile v path ≠ [] := by simp [tellFile, ascii]
    split
    · exact lists _ (fun s => s) (s0 := { s with stdin := [] }) hc (fun _ => rfl) (fun _ => rfl)
    · cases cfg.files path with
      | none => exact toldAs_bad hc _ nofile hne
      | some text =>
        dsimp only
        split
        · exact toldAs_bad hc _ nofile hne
        · exact lists _ (fun s => { s with fds := s.fds + 1 }) (s0 := { s with fds := s.fds - 1, opens := s.opens + 1 }) hc (fun _ => rfl) (fun _ => rfl)

/-! ### At the end -/

namespace Spec

/-- The options that must be given and were not. -/
def missingFlags (g : List AEntry) : List AEntry := (g.take (lastIdx g)).filter fun e => e.mand && !e.used

/-- How many values that must be given were not. -/
def missingValues (g : List AEntry) : Nat := ((g.take (lastIdx g)).filter fun e => decide (e.short = argvMand) && !e.used).length

/-- What is written about them. -/
def missingText (v : Voice) (g : List AEntry) : List UInt8 :=
  (if missingFlags g = [] then [] else v.prog ++ ascii ": usage problem, these mandatory flags must be specified:\n" ++ (missingFlags g).flatMap listed) ++
  (if missingValues g = 0 then [] else
    v.prog ++ ascii ": usage problem, " ++ decText (missingValues g) ++ ascii " more mandatory argument" ++ ending (missingValues g) ++ ascii " must be specified\n")

/-- What is written about `n` options without their values. -/
def waitingText (v : Voice) (n : Nat) : List UInt8 :=
  if n = 0 then [] else v.prog ++ ascii ": usage problem, " ++ decText n ++ ascii " more option-argument" ++ ending n ++ ascii " must be specified\n"

/-- A whole group of `d + 1` alternatives, one of which must be given, and none was: the first `ARGV_XOR` of the group is at `k`. -/
structure Lacking (g : List AEntry) (k d : Nat) : Prop where
  first : 1 ≤ k
  some : 1 ≤ d
  inside : k + 2 * d ≤ lastIdx g
  seps : ∀ t < d, ∃ e, g[k + 2 * t]? = .some e ∧ e.short = argvXor
  above : ∀ e, g[k + 2 * d]? = .some e → e.short ≠ argvXor
  below : ∀ m e, m + 2 = k → g[m]? = .some e → e.short ≠ argvXor
  none : ∀ t ≤ d, ¬ Given g (k - 1 + 2 * t)

/-- What is written about it. -/
def lackingText (v : Voice) (g : List AEntry) (k d : Nat) : List UInt8 :=
  v.prog ++ ascii ": usage problem, must specify one of:\n" ++ (List.range (d + 1)).flatMap fun t => (g[k - 1 + 2 * t]?).elim [] listed

end Spec

theorem usageProblem_ne (v : Voice) (t : List UInt8) : usageProblem v t ≠ [] := by
  unfold usageProblem
  intro h
  have := congrArg List.length h
  simp [ascii] at this

theorem mandLoop_false (v : Voice) : ∀ {es : List AEntry}, lastIdx es < es.length →
    mandLoop v es false = ok ((missingFlags es).flatMap listed, missingValues es)
  | [], h => by simp at h
  | e :: es, h => by
    rw [mandLoop]
    rw [lastIdx_cons] at h
    by_cases hl : e.short = argvLast
    · rw [if_pos hl]
      unfold missingFlags missingValues
      rw [lastIdx_cons, if_pos hl]
      rfl
    · rw [if_neg hl] at h ⊢
      have ih := mandLoop_false v (es := es) (by simpa using h)
      have hf : missingFlags (e :: es) = if e.mand && !e.used then e :: missingFlags es else missingFlags es := by
        unfold missingFlags
        rw [lastIdx_cons, if_neg hl, List.take_succ_cons, List.filter_cons]
      have hv : missingValues (e :: es) = missingValues es + if decide (e.short = argvMand) && !e.used then 1 else 0 := by
        unfold missingValues
        rw [lastIdx_cons, if_neg hl, List.take_succ_cons, List.filter_cons]
        split <;> simp
      rw [ih]
      by_cases hm : e.mand = true ∧ (!e.used) = true
      · rw [if_pos (by simpa using hm)] at hf
        rw [if_pos hm, hf, hv]
        have hu := hm.2
        simp only [ok_bind, hu, Bool.and_true, decide_eq_true_eq, optionLine_eq, List.flatMap_cons, Bool.false_eq_true, if_false, List.nil_append]
      · rw [if_neg (by simpa using hm)] at hf
        rw [if_neg hm, hf, hv]
        simp only [ok_bind, Bool.and_eq_true, decide_eq_true_eq]

theorem mandLoop_true (v : Voice) : ∀ {es : List AEntry}, lastIdx es < es.length →
    mandLoop v es true = ok ((if missingFlags es = [] then [] else
      usageProblem v (ascii "these mandatory flags must be specified:\n") ++ (missingFlags es).flatMap listed), missingValues es)
  | [], h => by simp at h
  | e :: es, h => by
    rw [mandLoop]
    rw [lastIdx_cons] at h
    by_cases hl : e.short = argvLast
    · rw [if_pos hl]
      unfold missingFlags missingValues
      rw [lastIdx_cons, if_pos hl]
      rfl
    · rw [if_neg hl] at h ⊢
      have hf : missingFlags (e :: es) = if e.mand && !e.used then e :: missingFlags es else missingFlags es := by
        unfold missingFlags
        rw [lastIdx_cons, if_neg hl, List.take_succ_cons, List.filter_cons]
      have hv : missingValues (e :: es) = missingValues es + if decide (e.short = argvMand) && !e.used then 1 else 0 := by
        unfold missingValues
        rw [lastIdx_cons, if_neg hl, List.take_succ_cons, List.filter_cons]
        split <;> simp
      by_cases hm : e.mand = true ∧ (!e.used) = true
      · rw [if_pos (by simpa using hm)] at hf
        rw [if_pos hm, hf, hv, mandLoop_false v (es := es) (by simpa using h)]
        have hu := hm.2
        simp only [ok_bind, hu, Bool.and_true, decide_eq_true_eq, optionLine_eq, List.flatMap_cons, if_true, reduceCtorEq, if_false, List.append_assoc]
      · rw [if_neg (by simpa using hm)] at hf
        rw [if_neg hm, hf, hv, mandLoop_true v (es := es) (by simpa using h)]
        simp only [ok_bind, Bool.and_eq_true, decide_eq_true_eq]

theorem tellMand_eq (v : Voice) {g : List AEntry} (h : lastIdx g < g.length) : tellMand v g = ok (missingText v g) := by
  unfold tellMand
  rw [mandLoop_true v h, ok_bind]
  unfold missingText usageProblem
  dsimp only
  rw [fmtU_eq, show pluralS (missingValues g) = ending (missingValues g) from rfl]
  by_cases h0 : missingValues g = 0
  · rw [if_neg (show ¬ missingValues g > 0 by omega), if_pos h0]
    split <;> simp only [List.append_assoc]
    rw [show ascii ": usage problem, these mandatory flags must be specified:\n" = ascii ": usage problem, " ++ ascii "these mandatory flags must be specified:\n" by decide]
    simp only [List.append_assoc]
  · rw [if_pos (show missingValues g > 0 by omega), if_neg h0]
    split <;> simp only [List.append_assoc]
    rw [show ascii ": usage problem, these mandatory flags must be specified:\n" = ascii ": usage problem, " ++ ascii "these mandatory flags must be specified:\n" by decide]
    simp only [List.append_assoc]

theorem tellWaiting_eq (v : Voice) (n : Nat) : tellWaiting v n = waitingText v n := by
  unfold tellWaiting waitingText usageProblem
  rw [fmtU_eq, show pluralS n = ending n from rfl]
  by_cases h0 : n = 0
  · rw [if_neg (by omega), if_pos h0]
  · rw [if_pos (by omega), if_neg h0]
    simp only [List.append_assoc]

theorem waitingText_nil {v : Voice} {n : Nat} : waitingText v n = [] ↔ n = 0 := by
  unfold waitingText
  split
  · simp [*]
  · simp [*, ascii]

theorem missingText_nil {v : Voice} {g : List AEntry} : missingText v g = [] ↔ missingFlags g = [] ∧ missingValues g = 0 := by
  unfold missingText
  rw [List.append_eq_nil_iff]
  refine and_congr ?_ ?_ <;> split <;> simp [*, ascii]

theorem checkMand_missing {v : Voice} {g : List AEntry} {b : Bool} (h : checkMand g = ok b) : b = true ↔ missingText v g = [] := by
  rw [checkMand_iff h, missingText_nil, missingFlags, missingValues, List.length_eq_zero_iff, List.filter_eq_nil_iff, List.filter_eq_nil_iff]
  constructor
  · intro hall
    have key : ∀ e ∈ g.take (lastIdx g), (e.short = argvMand ∨ e.mand = true) → e.used = true := by
      intro e he
      obtain ⟨i, hi, rfl⟩ := List.getElem_of_mem he
      simp only [List.length_take] at hi
      refine hall i (by omega) _ ?_
      rw [List.getElem_take]
      exact List.getElem?_eq_getElem (by omega)
    refine ⟨fun e he hb => ?_, fun e he hb => ?_⟩
    · simp only [Bool.and_eq_true, Bool.not_eq_true'] at hb
      rw [key e he (.inr hb.1)] at hb
      exact absurd hb.2 (by decide)
    · simp only [Bool.and_eq_true, Bool.not_eq_true', decide_eq_true_eq] at hb
      rw [key e he (.inl hb.1)] at hb
      exact absurd hb.2 (by decide)
  · rintro ⟨h1, h2⟩ i hi e he hor
    have hm : e ∈ g.take (lastIdx g) := by
      refine List.mem_of_getElem? (i := i) ?_
      rw [List.getElem?_take, if_pos hi]
      exact he
    rcases hor with h | h
    · have := h2 e hm
      simpa [h] using this
    · have := h1 e hm
      simpa [h] using this

theorem xorStart_eq {g : List AEntry} : ∀ (fuel k : Nat), checkXor g fuel k = xorStart g fuel k >>= fun m => ok m.isNone
  | 0, _ => by rw [checkXor, xorStart]; rfl
  | fuel + 1, k => by
    rw [checkXor, xorStart]
    cases entryAt g k with
    | err r => simp only [err_bind]
    | ub => simp only [ub_bind]
    | hang => simp only [hang_bind]
    | abort => simp only [abort_bind]
    | ok e =>
      simp only [ok_bind]
      split
      · rfl
      · split
        · exact xorStart_eq fuel (k + 1)
        · split
          · rfl
          · cases entryAt g (k - 1) with
            | err r => simp only [err_bind]
            | ub => simp only [ub_bind]
            | hang => simp only [hang_bind]
            | abort => simp only [abort_bind]
            | ok e =>
              simp only [ok_bind]
              cases xorRun g (g.length + 1) k e.used with
              | err r => simp only [err_bind]
              | ub => simp only [ub_bind]
              | hang => simp only [hang_bind]
              | abort => simp only [abort_bind]
              | ok r =>
                simp only [ok_bind]
                split
                · exact xorStart_eq fuel (r.1 + 1)
                · rfl

theorem xorStart_some {g : List AEntry} (hadj : NoAdjacent g) (hx : XorInside g) : ∀ {fuel k n : Nat}, xorStart g fuel k = ok (some n) →
    (∀ m, m + 1 = k → ∀ x, g[m]? = some x → x.short ≠ 251) → (∀ m, m + 2 = k → ∀ x y, g[m]? = some x → g[k]? = some y →
      ¬ (x.short = 251 ∧ y.short = 251)) → k ≤ lastIdx g → ∃ d, Lacking g n d
  | 0, _, _, h, _, _, _ => by rw [xorStart] at h; cases h
  | fuel + 1, k, n, h, hp1, hp2, hk => by
    rw [xorStart, bind_eq_ok] at h
    obtain ⟨x, hxk, h⟩ := h
    have hxk := entryAt_ok.mp hxk
    split at h
    · cases h
    rename_i hnl
    have hkl : k < lastIdx g := by
      rcases Nat.lt_or_eq_of_le hk with h | h
      · exact h
      · exfalso
        obtain ⟨hlen, hge⟩ := List.getElem?_eq_some_iff.mp hxk
        have := at_last (g := g) (by omega)
        subst h
        rw [hge] at this
        exact hnl this
    split at h
    · rename_i hnx
      have hnx : x.short ≠ 251 := hnx
      refine xorStart_some hadj hx h ?_ ?_ (by omega)
      · intro m hm y hy
        obtain rfl : m = k := by omega
        rw [hxk] at hy
        cases hy
        exact hnx
      · intro m hm y z hy hz ⟨h1, _⟩
        exact hp1 m (by omega) y hy h1
    · rename_i hxx
      have hxx : x.short = 251 := by simpa [argvXor] using hxx
      split at h
      · cases h
      rename_i hk0
      rw [bind_eq_ok] at h
      obtain ⟨below, hb, h⟩ := h
      have hb := entryAt_ok.mp hb
      rw [bind_eq_ok] at h
      obtain ⟨r, hr, h⟩ := h
      obtain ⟨d, hd, h1, h2, h3, h4⟩ := xorRun_spec hr
      have hsep : ∀ t < d, ∃ e, g[k + 2 * t]? = some e ∧ e.short = 251 := by
        intro t ht
        by_cases ht0 : t = 0
        · subst ht0; exact ⟨x, hxk, hxx⟩
        · exact h2 t (by omega) ht
      have hin : ∀ t < d, k + 2 * t + 1 < lastIdx g := by
        intro t
        induction t with
        | zero => intro _; exact (hx k hkl x hxk hxx).2
        | succ t ih =>
          intro ht
          have := ih (by omega)
          obtain ⟨e, he, hs⟩ := hsep (t + 1) ht
          have hlt : k + 2 * (t + 1) < lastIdx g := by
            rcases Nat.lt_or_eq_of_le (show k + 2 * (t + 1) ≤ lastIdx g by omega) with h | h
            · exact h
            · exfalso
              obtain ⟨hlen, hge⟩ := List.getElem?_eq_some_iff.mp he
              have := at_last (g := g) (by omega)
              have h' := List.getElem?_eq_getElem (l := g) (i := lastIdx g) (by omega)
              rw [h, h'] at he
              cases he
              rw [this] at hs
              cases hs
          exact (hx _ hlt e he hs).2
      have hrl := hin (d - 1) (by omega)
      split at h
      · refine xorStart_some hadj hx h ?_ ?_ (by omega)
        · intro m hm y hy hs
          obtain ⟨e, he, hes⟩ := hsep (d - 1) (by omega)
          exact hadj (k + 2 * (d - 1)) (by omega) e y he (by rw [show k + 2 * (d - 1) + 1 = m by omega]; exact hy) ⟨hes, hs⟩
        · intro m hm y z hy hz ⟨_, h6⟩
          exact h3 z hz h6
      · rename_i hu
        simp only [Bool.not_eq_true] at hu
        obtain ⟨hbu, hun⟩ := xorRun_used hr hu
        cases h
        refine ⟨d, by omega, hd, by omega, hsep, fun e he => h3 e (by rw [h1]; exact he), fun m e hm he hs => hp2 m hm e x he hxk ⟨hs, hxx⟩, ?_⟩
        intro t ht
        by_cases ht0 : t = 0
        · subst ht0
          rintro ⟨y, hy, hyu⟩
          rw [Nat.mul_zero, Nat.add_zero, hb] at hy
          cases hy
          rw [hbu] at hyu
          cases hyu
        · have := hun (t - 1) (by omega)
          rwa [show k + 2 * (t - 1) + 1 = k - 1 + 2 * t by omega] at this

theorem xorLines_eq {g : List AEntry} (hl : lastIdx g < g.length) : ∀ {d fuel k : Nat}, 1 ≤ k → k + 2 * d ≤ lastIdx g → d < fuel →
    (∀ t < d, ∃ e, g[k + 2 * t]? = some e ∧ e.short = argvXor) → (∀ e, g[k + 2 * d]? = some e → e.short ≠ argvXor) →
    xorLines g fuel k = ok ((List.range (d + 1)).flatMap fun t => (g[k - 1 + 2 * t]?).elim [] listed)
  | 0, fuel + 1, k, hk, hd, hf, hs, ha => by
    rw [xorLines, if_neg (by omega), entryAt_lt (by omega), ok_bind, entryAt_lt (by omega), ok_bind,
      if_pos (ha _ (by rw [Nat.mul_zero, Nat.add_zero]; exact List.getElem?_eq_getElem (by omega)))]
    simp [optionLine_eq, List.getElem?_eq_getElem (show k - 1 < g.length by omega)]
  | d + 1, fuel + 1, k, hk, hd, hf, hs, ha => by
    obtain ⟨e, he, hes⟩ := hs 0 (by omega)
    rw [Nat.mul_zero, Nat.add_zero, List.getElem?_eq_getElem (by omega)] at he
    cases he
    have ih := xorLines_eq hl (d := d) (fuel := fuel) (k := k + 2) (by omega) (by omega) (by omega)
      (fun t ht => by rw [show k + 2 + 2 * t = k + 2 * (t + 1) by omega]; exact hs (t + 1) (by omega))
      (by rw [show k + 2 + 2 * d = k + 2 * (d + 1) by omega]; exact ha)
    rw [xorLines, if_neg (by omega), entryAt_lt (by omega), ok_bind, entryAt_lt (by omega), ok_bind, if_neg (by simpa using hes), ih, ok_bind,
      List.range_succ_eq_map (n := d + 1), List.flatMap_cons, List.flatMap_map, optionLine_eq]
    congr 2
    · simp [List.getElem?_eq_getElem (show k - 1 < g.length by omega)]
    · congr 1
      funext t
      rw [show k + 2 - 1 + 2 * t = k - 1 + 2 * t.succ by omega]

/-- What is written about the groups. -/
theorem tellXor_spec {g : List AEntry} (hl : lastIdx g < g.length) (hadj : NoAdjacent g) (hx : XorInside g) {b : Bool}
    (h : checkXor g (g.length + 1) 0 = ok b) :
    (b = true ∧ tellXor v g = ok []) ∨ (b = false ∧ ∃ k d, Lacking g k d ∧ tellXor v g = ok (lackingText v g k d)) := by
  rw [xorStart_eq, bind_eq_ok] at h
  obtain ⟨m, hm, h⟩ := h
  unfold tellXor
  rw [hm, ok_bind]
  cases m with
  | none => cases h; exact .inl ⟨rfl, rfl⟩
  | some k =>
    cases h
    obtain ⟨d, hd⟩ := xorStart_some hadj hx hm (fun m h => by omega) (fun m h => by omega) (by omega)
    refine .inr ⟨rfl, k, d, hd, ?_⟩
    have := hd.inside
    dsimp only
    rw [xorLines_eq hl hd.first hd.inside (by omega) hd.seps hd.above, ok_bind]
    unfold lackingText usageProblem
    rw [show ascii ": usage problem, must specify one of:\n" = ascii ": usage problem, " ++ ascii "must specify one of:\n" by decide]
    simp only [List.append_assoc]

/-! ### The array -/

namespace Spec

/-- What is wrong with an array that is refused. -/
inductive ArrayFault (v : Voice) (g : List AEntry) : List UInt8 → Prop
  | mandAfterArray {i j : Nat} {e e' : AEntry} : i < j → EntryIs g i e → EntryIs g j e' → e.array = true →
      (e.short = argvMand ∨ e.short = argvMaybe) → e'.short = argvMand →
      ArrayFault v g (v.prog ++ ascii ": internal argv error, no ARGV_MAND's can follow a MAND or MAYBE array\n")
  | mandAfterMaybe {i j : Nat} {e e' : AEntry} : i < j → EntryIs g i e → EntryIs g j e' → e.short = argvMaybe → e'.short = argvMand →
      ArrayFault v g (v.prog ++ ascii ": internal argv error, no ARGV_MAND's can follow a ARGV_MAYBE\n")
  | maybeAfterArray {i j : Nat} {e e' : AEntry} : i < j → EntryIs g i e → EntryIs g j e' → e.array = true →
      (e.short = argvMand ∨ e.short = argvMaybe) → e'.short = argvMaybe →
      ArrayFault v g (v.prog ++ ascii ": internal argv error, no ARGV_MAYBE's can follow a MAND or MAYBE array\n")
  | noValues {i : Nat} {e : AEntry} : EntryIs g i e → e.array = true → (e.ty = 1 ∨ e.ty = 2 ∨ e.ty = 17 ∨ e.ty = 20 ∨ e.ty = 21) →
      ArrayFault v g (v.prog ++ ascii ": internal argv error, cannot have an array of boolean values\n")
  | noVariable {i : Nat} {e : AEntry} : EntryIs g i e → e.var = none → e.short ≠ argvOr → e.short ≠ argvXor →
      ArrayFault v g (v.prog ++ ascii ": internal argv error, NULL variable specified in arg array\n")
  | atEnd {i : Nat} {e : AEntry} : EntryIs g i e → (e.short = argvOr ∨ e.short = argvXor) → (i = 0 ∨ i + 1 = lastIdx g) →
      ArrayFault v g (v.prog ++ ascii ": internal argv error, ARGV_[X]OR entries cannot be at start or end of array\n")
  | adjacent {i : Nat} {e e' : AEntry} : EntryIs g i e → EntryIs g (i + 1) e' → (e.short = argvOr ∨ e.short = argvXor) →
      (e'.short = argvOr ∨ e'.short = argvXor) →
      ArrayFault v g (v.prog ++ ascii ": internal argv error, two ARGV_[X]OR entries cannot be next to each other\n")

end Spec

theorem internalError_text (full : String) {rest : String} (h : ascii full = ascii ": internal argv error, " ++ ascii rest) :
    internalError v (ascii rest) = v.prog ++ ascii full := by
  unfold internalError
  rw [h, List.append_assoc]

theorem isOr_short {e : AEntry} : isOr e = true ↔ e.short = argvOr ∨ e.short = argvXor := by simp [isOr]

theorem tellPre_spec : ∀ (es : List AEntry) (k : Nat) (prev : Option AEntry) (mandArr maybe : Bool),
    (∀ i e, es[i]? = some e → EntryIs g (k + i) e) → (∀ p, prev = some p → 1 ≤ k ∧ EntryIs g (k - 1) p) →
    (mandArr = true → ∃ i e, i < k ∧ EntryIs g i e ∧ e.array = true ∧ (e.short = argvMand ∨ e.short = argvMaybe)) →
    (maybe = true → ∃ i e, i < k ∧ EntryIs g i e ∧ e.short = argvMaybe) →
    preLoop (lastIdx g) es k prev mandArr maybe = ok none → ArrayFault v g (tellPre v (lastIdx g) es k prev mandArr maybe)
  | [], k, prev, ma, mb, h1, h2, h3, h4, h => by rw [preLoop] at h; cases h
  | e :: es, k, prev, ma, mb, h1, h2, h3, h4, h => by
    have he : EntryIs g k e := by simpa using h1 0 e rfl
    rw [preLoop] at h
    rw [tellPre]
    by_cases c1 : e.short = argvMand ∧ ma = true
    · rw [if_pos c1, internalError_text ": internal argv error, no ARGV_MAND's can follow a MAND or MAYBE array\n" (by decide)]
      obtain ⟨i, e', a, b, c, d⟩ := h3 c1.2
      exact .mandAfterArray a b he c d c1.1
    rw [if_neg c1]
    by_cases c2 : e.short = argvMand ∧ mb = true
    · rw [if_pos c2, internalError_text ": internal argv error, no ARGV_MAND's can follow a ARGV_MAYBE\n" (by decide)]
      obtain ⟨i, e', a, b, c⟩ := h4 c2.2
      exact .mandAfterMaybe a b he c c2.1
    rw [if_neg c2]
    rw [if_neg (by rintro ⟨a, b | b⟩; exacts [c1 ⟨a, b⟩, c2 ⟨a, b⟩])] at h
    by_cases c3 : e.short = argvMaybe ∧ ma = true
    · rw [if_pos c3, internalError_text ": internal argv error, no ARGV_MAYBE's can follow a MAND or MAYBE array\n" (by decide)]
      obtain ⟨i, e', a, b, c, d⟩ := h3 c3.2
      exact .maybeAfterArray a b he c d c3.1
    rw [if_neg c3] at h ⊢
    by_cases c4 : e.array = true ∧ (!hasArg e.ty) = true
    · rw [if_pos c4, internalError_text ": internal argv error, cannot have an array of boolean values\n" (by decide)]
      refine .noValues he c4.1 ?_
      have := c4.2
      simpa [hasArg, or_assoc] using this
    rw [if_neg c4] at h ⊢
    rw [if_neg (by
      rintro ⟨a, b⟩
      exact c4 ⟨a, by rw [b]; rfl⟩)]
    by_cases c5 : e.array = true ∧ e.var = none
    · rw [if_pos c5] at h; cases h
    rw [if_neg c5] at h
    by_cases c6 : e.var = none ∧ (!isOr e) = true
    · rw [if_pos c6, internalError_text ": internal argv error, NULL variable specified in arg array\n" (by decide)]
      have := c6.2
      simp only [isOr, Bool.not_eq_true', Bool.or_eq_false_iff, decide_eq_false_iff_not] at this
      exact .noVariable he c6.1 this.1 this.2
    rw [if_neg c6] at h ⊢
    by_cases c7 : isOr e = true ∧ (k = 0 ∨ k + 1 ≥ lastIdx g)
    · rw [if_pos c7, internalError_text ": internal argv error, ARGV_[X]OR entries cannot be at start or end of array\n" (by decide)]
      have := he.1
      exact .atEnd he (isOr_short.mp c7.1) (by omega)
    rw [if_neg c7] at h ⊢
    by_cases c8 : isOr e = true ∧ (prev.map isOr).getD false = true
    · rw [if_pos c8, internalError_text ": internal argv error, two ARGV_[X]OR entries cannot be next to each other\n" (by decide)]
      cases prev with
      | none => exact absurd c8.2 (by simp)
      | some p =>
        obtain ⟨a, b⟩ := h2 p rfl
        exact .adjacent b (by rw [Nat.sub_add_cancel a]; exact he) (isOr_short.mp (by simpa using c8.2)) (isOr_short.mp c8.1)
    rw [if_neg c8] at h ⊢
    rw [bind_eq_ok] at h
    obtain ⟨r, hr, h⟩ := h
    cases r with
    | some r => cases h
    | none =>
      refine tellPre_spec es (k + 1) (some e) _ _ (fun i x hx => ?_) (fun p hp => ?_) (fun hm => ?_) (fun hm => ?_) hr
      · have := h1 (i + 1) x (by simpa using hx)
        rwa [show k + (i + 1) = k + 1 + i by omega] at this
      · cases hp
        exact ⟨by omega, by simpa using he⟩
      · rw [Bool.or_eq_true] at hm
        rcases hm with hm | hm
        · obtain ⟨i, x, a, b⟩ := h3 hm
          exact ⟨i, x, by omega, b⟩
        · simp only [Bool.and_eq_true, Bool.or_eq_true, decide_eq_true_eq] at hm
          exact ⟨k, e, by omega, he, hm.1, hm.2⟩
      · rw [Bool.or_eq_true] at hm
        rcases hm with hm | hm
        · obtain ⟨i, x, a, b⟩ := h4 hm
          exact ⟨i, x, by omega, b⟩
        · exact ⟨k, e, by omega, he, by simpa using hm⟩

theorem tellPre_none (h : preprocess g = ok none) :
    ArrayFault v g (tellPre v (g.findIdx fun e => e.short = argvLast) (g.take (g.findIdx fun e => e.short = argvLast)) 0 none false false) := by
  unfold preprocess at h
  dsimp only at h
  change (if lastIdx g = g.length then ub else preLoop (lastIdx g) (g.take (lastIdx g)) 0 none false false >>= fun r =>
    ok (r.map (· ++ g.drop (lastIdx g)))) = ok none at h
  split at h
  · cases h
  · rw [bind_eq_ok] at h
    obtain ⟨r, hr, h⟩ := h
    cases r with
    | some r => cases h
    | none =>
      refine tellPre_spec (g.take (lastIdx g)) 0 none false false (fun i e he => ?_) (by simp) (by simp) (by simp) hr
      rw [List.getElem?_take] at he
      split at he
      · rw [Nat.zero_add]; exact ⟨by assumption, he⟩
      · cases he

/-! ### The theorems -/

namespace Spec

/-- What is written about a line: messages about arguments; what had to be given and was not; options without their values; a group of
which none was given. -/
def Explains (v : Voice) (cfg : ACfg) (g g' : List AEntry) (t : List UInt8) : Prop :=
  ∃ c n x, t = c ++ missingText v g' ++ waitingText v n ++ x ∧ Complaints v cfg g c ∧
    ((x = [] ∧ ¬ ∃ k d, Lacking g' k d) ∨ ∃ k d, Lacking g' k d ∧ x = lackingText v g' k d)

end Spec

/-- The arrays that are accepted, in which no group lacks an option. -/
theorem not_lacking {g : List AEntry} (hadj : NoAdjacent g) (h : checkXor g (g.length + 1) 0 = ok true) : ¬ ∃ k d, Lacking g k d := by
  rintro ⟨k, d, hd⟩
  obtain ⟨e, he, hes⟩ := hd.seps 0 hd.some
  have hin := hd.inside
  have hsome := hd.some
  have hfirst := hd.first
  obtain ⟨m, ⟨d', hd', hm⟩, hg⟩ := checkXor_true hadj h k (by omega) (by omega) e (by simpa using he) hes
  rcases hm with ⟨h1, h2⟩ | ⟨h1, h2⟩
  · by_cases hd1 : d' = 1
    · subst hd1
      refine hd.none 0 (by omega) ?_
      rwa [show k - 1 + 2 * 0 = m by omega]
    · obtain ⟨x, hx, hxs⟩ := h2 (d' - 2) (by omega)
      exact hd.below (m + 2 * (d' - 2) + 1) x (by omega) hx hxs
  · by_cases hdd : d' ≤ d
    · refine hd.none d' hdd ?_
      rwa [show k - 1 + 2 * d' = m by omega]
    · obtain ⟨x, hx, hxs⟩ := h2 d (by omega)
      exact hd.above x hx hxs

theorem tProcessLists_spec {g0 : List AEntry} (hl : lastIdx g < g.length) (hc0 : coresOf g0 = coresOf g) (hadj : NoAdjacent g) (hx : XorInside g)
    {fuel : Nat} {argv0 : List UInt8} {args env : List (List UInt8)} {stdin : List UInt8} {fds : Nat} {r : AResult}
    (h : processLists cfg fuel g0 argv0 args env stdin fds = ok r) :
    ∃ t, tProcessLists v cfg fuel g0 argv0 args env stdin fds = ok (r, t) ∧ (r.noError = true ↔ t = []) ∧ Explains v cfg g r.grid t := by
  unfold processLists at h
  dsimp only at h
  rw [bind_eq_ok] at h; obtain ⟨r1, h1, h⟩ := h
  rw [bind_eq_ok] at h; obtain ⟨r2, h2, h⟩ := h
  rw [bind_eq_ok] at h; obtain ⟨r3, h3, h⟩ := h
  rw [bind_eq_ok] at h; obtain ⟨bm, hm, h⟩ := h
  rw [bind_eq_ok] at h; obtain ⟨bx, hxo, h⟩ := h
  cases h
  have told : ∀ (ls : List (List UInt8)) {s : AState} {q : AState × List (List UInt8)}, coresOf s.grid = coresOf g →
      doList cfg (fileArgs cfg fuel) ls false s = ok q → ∃ t, tList v cfg (tFile v cfg fuel) ls false 0 s = ok (q.1, q.2, t) ∧
        coresOf q.1.grid = coresOf g ∧ (q.1.okay = true ↔ s.okay = true ∧ t = []) ∧ Complaints v cfg g t := by
    intro ls s q hs hq
    have := tList_spec (v := v) (cfg := cfg) hl (fun path s hs => tFile_spec (v := v) (cfg := cfg) hl fuel path s hs) ls false 0 hs (by omega)
    rw [hq] at this
    generalize tList v cfg (tFile v cfg fuel) ls false 0 s = T at this ⊢
    cases this with
    | ok k1 k2 k3 k4 => exact ⟨_, rfl, k1, k2 rfl, k4⟩
  obtain ⟨t1, e1, c1, o1, w1⟩ := told _ hc0 h1
  obtain ⟨t2, e2, c2, o2, w2⟩ := told _ c1 h2
  obtain ⟨t3, e3, c3, o3, w3⟩ := told _ c2 h3
  have hlen : r3.1.grid.length = g.length := by simpa [coresOf] using congrArg List.length c3
  have hl3 : lastIdx r3.1.grid < r3.1.grid.length := by rw [lastIdx_core c3, hlen]; exact hl
  have hadj3 : NoAdjacent r3.1.grid := by
    intro i hi a b ha hb
    rw [lastIdx_core c3] at hi
    obtain ⟨a', ha', ea⟩ := entry_core c3 ha
    obtain ⟨b', hb', eb⟩ := entry_core c3 hb
    rw [← (core_fields ea).1, ← (core_fields eb).1]
    exact hadj i hi a' b' ha' hb'
  have hx3 : XorInside r3.1.grid := by
    intro k hk e he hs
    rw [lastIdx_core c3] at hk ⊢
    obtain ⟨e', he', ee⟩ := entry_core c3 he
    exact hx k hk e' he' (by rw [(core_fields ee).1]; exact hs)
  unfold tProcessLists
  dsimp only
  rw [e1, ok_bind]
  dsimp only
  rw [e2, ok_bind]
  dsimp only
  rw [e3, ok_bind]
  dsimp only
  rw [hm, ok_bind, hxo, ok_bind, tellMand_eq v hl3, ok_bind, tellWaiting_eq]
  have hmt := checkMand_missing (v := v) hm
  have hwt : (!decide (r3.1.queue.length > r3.1.tail)) = true ↔ waitingText v (r3.1.queue.length - r3.1.tail) = [] := by
    rw [waitingText_nil]
    simp
    omega
  have hcs : Complaints v cfg g (t1 ++ t2 ++ t3) := (w1.append w2).append w3
  rcases tellXor_spec (v := v) hl3 hadj3 hx3 hxo with ⟨hb, ht⟩ | ⟨hb, k, d, hd, ht⟩
  · rw [ht, ok_bind]
    refine ⟨_, rfl, ?_, t1 ++ t2 ++ t3, _, [], rfl, hcs, .inl ⟨rfl, ?_⟩⟩
    · rw [hb, Bool.and_true, Bool.and_eq_true, Bool.and_eq_true, hmt, hwt, o3, o2, o1]
      simp only [List.append_eq_nil_iff, List.append_nil, true_and]
    · rw [hb] at hxo
      exact not_lacking hadj3 hxo
  · rw [ht, ok_bind]
    refine ⟨_, rfl, ?_, t1 ++ t2 ++ t3, _, _, rfl, hcs, .inr ⟨k, d, hd, rfl⟩⟩
    rw [hb, Bool.and_false]
    simp [lackingText, ascii]

/-- **C123.**  A line that is accepted: nothing is written.  One that is refused: either the array is, and then the message says what is
wrong with it; or there is something in front of the usage message, and it consists of statements that are true — about arguments that are
not options, that are ambiguous, given twice or exclude each other, of the options and values that are missing (all of them, and no
others), and of a group without an option. -/
theorem C123_explained (v : Voice) (errType : Nat) (texts : List (Option (List UInt8) × Option (List UInt8))) {cfg : ACfg} {fuel : Nat}
    {g : List AEntry} {argv : List (List UInt8)} {stdin : List UInt8} {fds : Nat} {r : AResult}
    (h : argvProcess cfg fuel g argv stdin fds = ok r) :
    (r.noError = true → tProcess v errType texts cfg fuel g argv stdin fds = ok (r, [])) ∧
    (r.noError = false →
      (preprocess g = ok none ∧ ∃ t, ArrayFault v g t ∧ tProcess v errType texts cfg fuel g argv stdin fds = ok (r, t)) ∨
      ∃ t, t ≠ [] ∧ Explains v cfg g r.grid t ∧ tProcess v errType texts cfg fuel g argv stdin fds =
        doUsage v.prog (withTexts r.grid texts) errType >>= fun u => ok (r, t ++ u)) := by
  unfold argvProcess at h
  unfold tProcess
  match argv with
  | [] => cases h
  | argv0 :: args =>
    dsimp only at h ⊢
    rw [bind_eq_ok] at h
    obtain ⟨p, hp, h⟩ := h
    rw [hp, ok_bind]
    cases p with
    | none =>
      cases h
      exact ⟨fun h => (by cases h), fun _ => .inl ⟨rfl, _, tellPre_none hp, rfl⟩⟩
    | some g0 =>
      obtain ⟨hc, hl, -⟩ := preprocess_core hp
      obtain ⟨t, e, o, x⟩ := tProcessLists_spec (v := v) hl hc (preprocess_adj hp) (preprocess_xor hp) h
      dsimp only
      rw [e, ok_bind]
      dsimp only
      refine ⟨fun hn => ?_, fun hn => .inr ⟨t, ?_, x, ?_⟩⟩
      · rw [if_pos hn, o.mp hn]
      · intro ht
        rw [o.mpr ht] at hn
        cases hn
      · rw [if_neg (by simp [hn])]

/-! ### Every unknown option is named -/

theorem ToldAs.cores {b : Bool} {q : AState × List UInt8} {T : Outcome (AState × List UInt8)} {D : Outcome AState} (h : ToldAs v cfg g b T D)
    (e : T = Outcome.ok q) : coresOf q.1.grid = coresOf g := by
  cases h with
  | ok hc _ _ => cases e; exact hc
  | err r => cases e
  | ub => cases e
  | hang => cases e
  | abort => cases e

theorem ToldV.cores {b : Bool} {q : AState × List UInt8 × Nat} {T : Outcome (AState × List UInt8 × Nat)} {D : Outcome AState}
    (h : ToldV v cfg g b T D) (e : T = Outcome.ok q) : coresOf q.1.grid = coresOf g := by
  cases h with
  | ok hc _ _ => cases e; exact hc
  | unwanted hc _ => cases e; exact hc
  | err r => cases e
  | ub => cases e
  | hang => cases e
  | abort => cases e

theorem tList_mid (hl : lastIdx g < g.length) {TK : List UInt8 → AState → Outcome (AState × List UInt8)} {DK : List UInt8 → AState → Outcome AState}
    (hK : ∀ path s, coresOf s.grid = coresOf g → ToldAs v cfg g s.okay (TK path s) (DK path s)) {a : List UInt8} {post : List (List UInt8)} :
    ∀ {pre : List (List UInt8)} {n : Nat} {s s' : AState} {l : List (List UInt8)} {t : List UInt8}, ascii "--" ∉ pre → coresOf s.grid = coresOf g →
    tList v cfg TK (pre ++ a :: post) false n s = ok (s', l, t) →
    ∃ n1 s1 r, coresOf (AState.grid s1) = coresOf g ∧ tList v cfg TK (a :: post) false n1 s1 = ok r ∧ r.2.2 <:+ t
  | [], n, s, s', l, t, hp, hc, h => ⟨n, s, _, hc, h, List.suffix_refl _⟩
  | x :: pre, n, s, s', l, t, hp, hc, h => by
    have hx : x ≠ ascii "--" := by rintro rfl; exact hp (by simp)
    have hp' : ascii "--" ∉ pre := fun h => hp (by simp [h])
    rw [List.cons_append, tList, if_neg (by simp [hx]), if_neg (by simp [hx])] at h
    have step : ∀ {q : AState × List UInt8} {m : Nat}, coresOf q.1.grid = coresOf g → ∀ {w : List UInt8},
        (tList v cfg TK (pre ++ a :: post) false m q.1 >>= fun r => ok (r.1, w :: r.2.1, q.2 ++ r.2.2)) = ok (s', l, t) →
        ∃ n1 s1 r, coresOf (AState.grid s1) = coresOf g ∧ tList v cfg TK (a :: post) false n1 s1 = ok r ∧ r.2.2 <:+ t := by
      intro q m hq w h
      rw [bind_eq_ok] at h
      obtain ⟨⟨s2, l2, t2⟩, h2, h⟩ := h
      cases h
      obtain ⟨n1, s1, r, k1, k2, k3⟩ := tList_mid hl hK hp' hq h2
      exact ⟨n1, s1, r, k1, k2, k3.trans (List.suffix_append _ _)⟩
    split at h
    · rename_i h2
      rw [bind_eq_ok] at h
      obtain ⟨q, hq, h⟩ := h
      exact step ((tLong_spec hl hK h2.2 hc).cores hq) h
    · split at h
      · rename_i h2
        rw [bind_eq_ok] at h
        obtain ⟨q, hq, h⟩ := h
        exact step ((tShort_spec (v := v) (cfg := cfg) hl h2.2.1 hc).cores hq) h
      · rw [bind_eq_ok] at h
        obtain ⟨q, hq, h⟩ := h
        exact step (q := (q.1, q.2.1)) ((tValue_spec hK x hc).cores hq) h

theorem tLong_unknown (hl : lastIdx g < g.length) (TK : List UInt8 → AState → Outcome (AState × List UInt8)) {w : List UInt8} (h0 : w ≠ [])
    (h61 : (61 : UInt8) ∉ w) (hn : ∀ i e l, EntryIs g i e → e.long = some l → ¬ w <+: l) (ho : ∀ o ∈ ownNames, ¬ w <+: o) {s : AState}
    (hc : coresOf s.grid = coresOf g) : tLong v cfg TK (ascii "--" ++ w) s =
      ok ({ s with okay := false }, v.prog ++ ascii ": usage problem, unknown long option '--" ++ w ++ ascii "'.\n") := by
  have hlen : s.grid.length = g.length := by simpa [coresOf] using congrArg List.length hc
  have hls : lastIdx s.grid < s.grid.length := by rw [lastIdx_core hc, hlen]; exact hl
  have hp := (punch_none cfg (w := ascii "--" ++ w) (by
    rw [List.mem_append]
    rintro (h | h)
    · exact absurd h (by decide)
    · exact h61 h)).1
  have hd : (ascii "--" ++ w).drop 2 = w := rfl
  have hloop : longLoop w s.grid 0 none = ok .no := by
    refine longLoop_none 0 none hls (fun j hj e he => ?_)
    obtain ⟨e0, k1, k2⟩ := EntryIs.core hc ⟨hj, he⟩
    unfold longMatches
    cases hlong : e.long with
    | none => rfl
    | some l =>
      have := hn j e0 l k1 (by rw [(core_fields k2).2.1]; exact hlong)
      rw [← List.isPrefixOf_iff_prefix, Bool.not_eq_true] at this
      exact this
  unfold tLong
  dsimp only
  rw [hp, hd, if_neg h0, hloop, ok_bind]
  dsimp only
  have hno : ∀ o ∈ ownNames, ¬ (w.isPrefixOf o = true) := fun o h => by
    rw [List.isPrefixOf_iff_prefix]; exact ho o h
  have h1 := hno (ascii "argv-file") (by decide)
  have h2 := hno (ascii "usage") (by decide)
  have h3 := hno (ascii "help") (by decide)
  have h4 := hno (ascii "usage-short") (by decide)
  have h5 := hno (ascii "usage-long") (by decide)
  have h6 := hno (ascii "usage-all") (by decide)
  have h7 := hno (ascii "version") (by decide)
  have h8 := hno (ascii "argv-display") (by decide)
  rw [if_neg h1, if_neg (by rintro (h | h | h | h | h | h | h); exacts [h2 h, h3 h, h4 h, h5 h, h6 h, h7 h, h8 h])]
  unfold usageProblem
  rw [show ascii ": usage problem, unknown long option '--" = ascii ": usage problem, " ++ (ascii "unknown long option '" ++ ascii "--") by decide]
  simp only [List.append_assoc]

theorem tShort_unknown (hl : lastIdx g < g.length) {c : UInt8} (h61 : c ≠ 61) (h63 : c ≠ 63)
    (hd : c ∉ ascii "0123456789+-.") (hn : ∀ i e, EntryIs g i e → e.short ≠ c) {s : AState} (hc : coresOf s.grid = coresOf g) :
    tShort v cfg (ascii "-" ++ [c]) s =
      ok ({ s with okay := false }, v.prog ++ ascii ": usage problem, unknown short option '-" ++ [c] ++ ascii "'.\n") := by
  have hlen : s.grid.length = g.length := by simpa [coresOf] using congrArg List.length hc
  have hls : lastIdx s.grid < s.grid.length := by rw [lastIdx_core hc, hlen]; exact hl
  have hp := (punch_none cfg (w := ascii "-" ++ [c]) (by
    rw [List.mem_append]
    rintro (h | h)
    · exact absurd h (by decide)
    · exact h61 (List.mem_singleton.mp h).symm)).1
  have hdr : (ascii "-" ++ [c]).drop 1 = [c] := rfl
  have hscan : scanGrid (fun e => e.short = c) s.grid 0 = ok none := by
    rcases scanGrid_total (p := fun e => decide (e.short = c)) (g := s.grid) 0 hls with ⟨k, e, -, k2, k3, k4, -⟩ | ⟨h, -⟩
    · obtain ⟨e0, j1, j2⟩ := EntryIs.core hc ⟨k2, k3⟩
      exact absurd (by rw [(core_fields j2).1]; exact of_decide_eq_true k4) (hn k e0 j1)
    · exact h
  have hnum : isNumber (ascii "-" ++ [c]) = false := by
    unfold isNumber
    rw [Bool.and_eq_false_iff]
    right
    rw [List.all_append]
    have : (ascii "0123456789+-.").contains c = false := by simpa using hd
    simp only [List.all_cons, List.all_nil, this, Bool.and_true, Bool.and_false]
  unfold tShort
  dsimp only
  rw [hp, hdr, if_neg (by simp), tCluster, hscan, ok_bind]
  dsimp only
  rw [if_neg h63, if_neg (by simp [hnum]), tCluster, ok_bind]
  unfold unknownShort usageProblem
  rw [show ascii ": usage problem, unknown short option '-" = ascii ": usage problem, " ++ ascii "unknown short option '-" by decide]
  simp only [List.append_assoc, List.append_nil]

/-- What is written about one argument is part of what is written. -/
theorem tProcess_part {errType : Nat} {texts : List (Option (List UInt8) × Option (List UInt8))} {fuel : Nat} {g0 : List AEntry}
    (hp : preprocess g = ok (some g0)) {argv0 a m : List UInt8} {pre post : List (List UInt8)} (hpre : ascii "--" ∉ pre)
    (ha : ∀ n s, coresOf s.grid = coresOf g → ∀ r, tList v cfg (tFile v cfg fuel) (a :: post) false n s = ok r → m <+: r.2.2)
    {stdin : List UInt8} {fds : Nat} {r : AResult} {t : List UInt8}
    (h : tProcess v errType texts cfg fuel g (argv0 :: (pre ++ a :: post)) stdin fds = ok (r, t)) : m <:+: t := by
  obtain ⟨hc, hl, -⟩ := preprocess_core hp
  unfold tProcess at h
  dsimp only at h
  rw [hp, ok_bind] at h
  dsimp only at h
  rw [bind_eq_ok] at h
  obtain ⟨⟨r', t'⟩, h1, h⟩ := h
  have key : m <:+: t' := by
    unfold tProcessLists at h1
    dsimp only at h1
    rw [bind_eq_ok] at h1; obtain ⟨⟨s1, l1, t1⟩, e1, h1⟩ := h1
    rw [bind_eq_ok] at h1; obtain ⟨⟨s2, l2, t2⟩, e2, h1⟩ := h1
    rw [bind_eq_ok] at h1; obtain ⟨⟨s3, l3, t3⟩, e3, h1⟩ := h1
    rw [bind_eq_ok] at h1; obtain ⟨b1, -, h1⟩ := h1
    rw [bind_eq_ok] at h1; obtain ⟨b2, -, h1⟩ := h1
    rw [bind_eq_ok] at h1; obtain ⟨tm, -, h1⟩ := h1
    rw [bind_eq_ok] at h1; obtain ⟨tx, -, h1⟩ := h1
    have hc1 : coresOf s1.grid = coresOf g := by
      have := tList_spec (v := v) (cfg := cfg) hl (fun path s hs => tFile_spec (v := v) (cfg := cfg) hl fuel path s hs)
        (if cfg.processEnv && !cfg.envAfter then envArgs cfg argv0 else []) false 0
        (s := ⟨g0, [], (pre ++ a :: post).length + 1 + (envArgs cfg argv0).length, 0, true, stdin, fds, 0⟩) hc (by omega)
      rw [e1] at this
      generalize doList cfg (fileArgs cfg fuel) _ false _ = D at this
      cases this with
      | ok k1 k2 k3 k4 => exact k1
    obtain ⟨n, s, q, k1, k2, k3⟩ := tList_mid (v := v) (cfg := cfg) hl (fun path s hs => tFile_spec (v := v) (cfg := cfg) hl fuel path s hs) hpre hc1 e2
    have hm : m <:+: t2 := (ha n s k1 q k2).isInfix.trans k3.isInfix
    cases h1
    refine hm.trans ⟨t1, t3 ++ tm ++ tellWaiting v (s3.queue.length - s3.tail) ++ tx, ?_⟩
    simp only [List.append_assoc]
  dsimp only at h
  split at h
  · cases h; exact key
  · rw [bind_eq_ok] at h
    obtain ⟨u, -, h⟩ := h
    cases h
    exact key.trans (List.prefix_append _ _).isInfix

/-- **C123.**  Every unknown long option in front of `--` is named. -/
theorem C123_unknown_long {v : Voice} {errType : Nat} {texts : List (Option (List UInt8) × Option (List UInt8))} {cfg : ACfg} {fuel : Nat}
    {g g0 : List AEntry} (hp : preprocess g = ok (some g0)) {argv0 w : List UInt8} {pre post : List (List UInt8)} (hpre : ascii "--" ∉ pre)
    (h0 : w ≠ []) (h61 : (61 : UInt8) ∉ w) (hn : ∀ i e l, EntryIs g i e → e.long = some l → ¬ w <+: l) (ho : ∀ o ∈ ownNames, ¬ w <+: o)
    {stdin : List UInt8} {fds : Nat} {r : AResult} {t : List UInt8}
    (h : tProcess v errType texts cfg fuel g (argv0 :: (pre ++ (ascii "--" ++ w) :: post)) stdin fds = ok (r, t)) :
    v.prog ++ ascii ": usage problem, unknown long option '--" ++ w ++ ascii "'.\n" <:+: t := by
  obtain ⟨hc, hl, -⟩ := preprocess_core hp
  refine tProcess_part hp hpre (fun n s hs r hr => ?_) h
  have hne : ascii "--" ++ w ≠ ascii "--" := by
    intro h
    exact h0 (by simpa using h)
  have htake : (ascii "--" ++ w).take 2 = ascii "--" := rfl
  rw [tList, if_neg (by simp [hne]), if_neg (by simp [hne]), if_pos ⟨rfl, htake⟩, tLong_unknown hl _ h0 h61 hn ho hs, ok_bind, bind_eq_ok] at hr
  obtain ⟨q, -, hr⟩ := hr
  cases hr
  exact List.prefix_append _ _

/-- **C123.**  Every unknown short option in front of `--` is named. -/
theorem C123_unknown_short {v : Voice} {errType : Nat} {texts : List (Option (List UInt8) × Option (List UInt8))} {cfg : ACfg} {fuel : Nat}
    {g g0 : List AEntry} (hp : preprocess g = ok (some g0)) {argv0 : List UInt8} {c : UInt8} {pre post : List (List UInt8)} (hpre : ascii "--" ∉ pre)
    (h61 : c ≠ 61) (h63 : c ≠ 63) (hd : c ∉ ascii "0123456789+-.") (hn : ∀ i e, EntryIs g i e → e.short ≠ c)
    {stdin : List UInt8} {fds : Nat} {r : AResult} {t : List UInt8}
    (h : tProcess v errType texts cfg fuel g (argv0 :: (pre ++ (ascii "-" ++ [c]) :: post)) stdin fds = ok (r, t)) :
    v.prog ++ ascii ": usage problem, unknown short option '-" ++ [c] ++ ascii "'.\n" <:+: t := by
  obtain ⟨hc, hl, -⟩ := preprocess_core hp
  refine tProcess_part hp hpre (fun n s hs r hr => ?_) h
  have h45 : c ≠ 45 := by rintro rfl; exact hd (by decide)
  have hdd : ascii "--" = [45, 45] := by decide
  have hsd : ascii "-" = [45] := by decide
  have hne : ascii "-" ++ [c] ≠ ascii "--" := by
    rw [hdd, hsd]
    simp [h45]
  rw [tList, if_neg (by simp [hne]), if_neg (by simp [hne]), if_neg (by
    rintro ⟨-, h⟩
    exact hne h), if_pos ⟨rfl, rfl, by rw [hsd]; simp⟩, tShort_unknown hl h61 h63 hd hn hs, ok_bind, bind_eq_ok] at hr
  obtain ⟨q, -, hr⟩ := hr
  cases hr
  exact List.prefix_append _ _

/-- `prog`, and the name of the source file. -/
def tellVoice : Voice := ⟨ascii "prog", ascii "argv.c"⟩

/-- `--quick`, without a short name. -/
def quickGrid : List AEntry := [⟨0, some (ascii "quick"), 1, false, false, false, some (.one (.num 0))⟩, argvEnd, argvEnd]

/-- **C123 does not hold for an option without a short name**: given twice, it is named by an octet 0. -/
theorem C123_named_violated : ∃ r, tProcess tellVoice 0 [] { argvCfg with multiAccept := false } 1 quickGrid
    [ascii "prog", ascii "--quick", ascii "--quick"] [] 1 =
    ok (r, ascii "prog: usage problem, you've already specified the '" ++ [0] ++ ascii "' argument\n") ∧ r.noError = false := by
  refine ⟨⟨false, [⟨0, some (ascii "quick"), 1, false, false, true, some (.one (.num 1))⟩, argvEnd, argvEnd], [ascii "prog", ascii "--quick", ascii "--quick"], 0⟩, ?_, rfl⟩
  decide +kernel

/-- **C123 does not hold for an array of counters**: it is called an array of boolean values, whatever else is in the array of options. -/
theorem C123_counter_violated (v : Voice) {e : AEntry} (ha : e.array = true) (ht : e.ty = 17) (hs : e.short ≠ argvMand) (hs' : e.short ≠ argvMaybe)
    (n i : Nat) (es : List AEntry) (prev : Option AEntry) (ma mb : Bool) :
    tellPre v n (e :: es) i prev ma mb = v.prog ++ ascii ": internal argv error, cannot have an array of boolean values\n" := by
  rw [tellPre, if_neg (by simp [hs]), if_neg (by simp [hs]), if_neg (by simp [hs']), if_pos (by rw [ht]; exact ⟨ha, rfl⟩),
    internalError_text ": internal argv error, cannot have an array of boolean values\n" (by decide)]

/-- The hypotheses are met: a line with five faults. -/
example : (match tProcess tellVoice 4 [] argvCfg 1 argvGrid
      [ascii "prog", ascii "--zeta", ascii "-n", ascii "-q"] [] 1 with | ok (r, t) => (r.noError, t) | _ => (true, [])) =
    (false, ascii "prog: usage problem, unknown long option '--zeta'.\nprog: usage problem, unknown short option '-q'.\n" ++
      ascii "prog: usage problem, 1 more mandatory argument must be specified\nprog: usage problem, 1 more option-argument must be specified\n" ++
      ascii "prog: usage problem, must specify one of:\n       -a (--alpha)\n       -b (--beta)\n       Use the '--usage' argument for assistance.\n") := by
  decide +kernel

/-- The hypotheses are met: a group of which none was given. -/
example : Lacking argvGrid 1 1 :=
  ⟨by decide, by decide, by decide, by decide, by decide, fun m e h => by omega, by decide⟩

example : ∃ t, ArrayFault tellVoice [⟨252, none, 0, false, false, false, none⟩, argvEnd] t :=
  ⟨_, .atEnd (i := 0) (e := ⟨252, none, 0, false, false, false, none⟩) ⟨by decide, rfl⟩ (.inl rfl) (.inl rfl)⟩

end Wdns
