import Verif.Lemmas.Argv
import Verif.Props.ArgvSamples

/-!
# Properties of command lines: what holds after success — C109
-/

namespace Wdns
open Outcome

/-! ### Specification -/

/-- The entries `i < j` are alternatives: every second entry between them is `ARGV_OR` or `ARGV_XOR`. -/
def Spec.Alternatives (g : List AEntry) (i j : Nat) : Prop :=
  ∃ d, 1 ≤ d ∧ j = i + 2 * d ∧ ∀ t < d, ∃ e, g[i + 2 * t + 1]? = some e ∧ (e.short = 252 ∨ e.short = 251)

/-- The entry `j` belongs to the group of the `ARGV_XOR` at `k`: every second entry from `k` on to `j` is `ARGV_XOR`. -/
def Spec.OneOf (g : List AEntry) (k j : Nat) : Prop :=
  ∃ d, 1 ≤ d ∧ ((j + 2 * d = k + 1 ∧ ∀ t < d, ∃ e, g[j + 2 * t + 1]? = some e ∧ e.short = 251) ∨
    (j + 1 = k + 2 * d ∧ ∀ t < d, ∃ e, g[k + 2 * t]? = some e ∧ e.short = 251))

/-- Entry `i` has been given on the command line. -/
def Spec.Given (g : List AEntry) (i : Nat) : Prop := ∃ e, g[i]? = some e ∧ e.used = true

instance (g : List AEntry) (i : Nat) : Decidable (Spec.Given g i) :=
  decidable_of_iff ((g[i]?).any (·.used) = true) (by unfold Spec.Given; cases g[i]? <;> simp)

/-- Entry `i` takes an argument by its position. -/
def Spec.Positional (g : List AEntry) (i : Nat) : Prop := ∃ e, g[i]? = some e ∧ (e.short = 254 ∨ e.short = 253)

/-! ### Proofs -/

theorem doArg_spec {cfg : ACfg} {i : Nat} {close : Option (List UInt8)} {s s' : AState} (h : doArg cfg i close s = ok s') :
    ∃ e v, s.grid[i]? = some e ∧ s'.grid = s.grid.set i { e with used := true, var := v } ∧
      (s'.okay = true → s.okay = true ∧ checkOr (s.grid.set i { e with used := true }) i = ok false) := by
  unfold doArg at h
  rw [bind_eq_ok] at h
  obtain ⟨e, he, h⟩ := h
  dsimp only at h
  rw [bind_eq_ok] at h
  obtain ⟨clash, hc, h⟩ := h
  have he := entryAt_ok.mp he
  have okk : ∀ b1 b2 : Bool, (s.okay && !b1 && !clash && b2) = true → s.okay = true ∧
      checkOr (s.grid.set i { e with used := true }) i = ok false := by
    intro b1 b2 hb
    simp only [Bool.and_eq_true, Bool.not_eq_true'] at hb
    refine ⟨hb.1.1.1, ?_⟩
    rw [hc, hb.1.2]
  split at h
  · rw [bind_eq_ok] at h
    obtain ⟨r, hr, h⟩ := h
    cases h
    obtain ⟨v, hv⟩ := stringToValue_core hr
    refine ⟨e, v, he, ?_, okk _ _⟩
    dsimp only
    rw [List.set_set, hv]
  · split at h
    · cases h
      refine ⟨e, e.var, he, rfl, ?_⟩
      intro hb
      exact okk _ true (by rw [Bool.and_true]; exact hb)
    · cases h

/-- The array keeps what the program wrote in it. -/
theorem shape_inv (cfg : ACfg) (c : List AEntry) : AInv cfg (fun s => coresOf s.grid = c) where
  bad _ h := h
  arg i close s s' hs h := by
    obtain ⟨e, v, h1, h2, _⟩ := doArg_spec h
    show coresOf s'.grid = c
    rw [h2, set_coresOf h1 (by rfl)]; exact hs
  value i e v s b hs he _ := by show coresOf (s.grid.set i _) = c; rw [set_coresOf he (by rfl)]; exact hs
  pos i e v s b hs he _ := by show coresOf (s.grid.set i _) = c; rw [set_coresOf he (by rfl)]; exact hs
  push _ h _ := h
  pop _ h _ := h
  stdin _ _ h := h
  files _ _ _ h := h

theorem orBelow_false {g : List AEntry} : ∀ {j : Nat}, orBelow g j = ok false → ∀ i d, 1 ≤ d → j = i + 2 * d →
    (∀ t < d, ∃ e, g[i + 2 * t + 1]? = some e ∧ (e.short = 252 ∨ e.short = 251)) → ∀ e, g[i]? = some e → e.used = false
  | 0, _, i, d, hd, hj, _, _, _ => by omega
  | 1, _, i, d, hd, hj, _, _, _ => by omega
  | k + 2, h, i, d, hd, hj, hs, e, he => by
    rw [orBelow, bind_eq_ok] at h
    obtain ⟨sep, h1, h⟩ := h
    obtain ⟨sep', h2, h3⟩ := hs (d - 1) (by omega)
    rw [show i + 2 * (d - 1) + 1 = k + 1 by omega, entryAt_ok.mp h1] at h2
    cases h2
    have : isOr sep = true := by unfold isOr argvOr argvXor; simpa using h3
    rw [this] at h
    simp only [Bool.not_true, Bool.false_eq_true, if_false] at h
    rw [bind_eq_ok] at h
    obtain ⟨x, hx, h⟩ := h
    split at h
    · cases h
    · rename_i hu
      by_cases h1d : d = 1
      · have : i = k := by omega
        subst this
        rw [entryAt_ok.mp hx] at he
        cases he
        simpa using hu
      · exact orBelow_false h i (d - 1) (by omega) (by omega) (fun t ht => hs t (by omega)) e he

theorem orAbove_false {g : List AEntry} : ∀ {fuel j : Nat}, orAbove g fuel j = ok false → 1 ≤ j → ∀ d,
    (∀ t ≤ d, ∃ e, g[j + 2 * t - 1]? = some e ∧ (e.short = 252 ∨ e.short = 251)) →
    (∀ t ≤ d, ∃ e, g[j + 2 * t]? = some e ∧ e.short ≠ argvLast) → ∀ e, g[j + 2 * d]? = some e → e.used = false
  | 0, j, h, _, _, _, _, _, _ => by rw [orAbove] at h; cases h
  | fuel + 1, j, h, hj, d, hs, hl, e, he => by
    rw [orAbove, bind_eq_ok] at h
    obtain ⟨x, hx, h⟩ := h
    have hx := entryAt_ok.mp hx
    obtain ⟨x', hx', hl'⟩ := hl 0 (by omega)
    rw [Nat.mul_zero, Nat.add_zero, hx] at hx'
    cases hx'
    rw [if_neg hl', bind_eq_ok] at h
    obtain ⟨sep, h1, h⟩ := h
    obtain ⟨sep', h2, h3⟩ := hs 0 (by omega)
    rw [Nat.mul_zero, Nat.add_zero, entryAt_ok.mp h1] at h2
    cases h2
    have : isOr sep = true := by unfold isOr argvOr argvXor; simpa using h3
    have hnl : sep.short ≠ argvLast := by rcases h3 with h3 | h3 <;> rw [h3] <;> decide
    rw [if_neg hnl, this] at h
    simp only [Bool.not_true, Bool.false_eq_true, if_false] at h
    split at h
    · cases h
    · rename_i hu
      by_cases hd : d = 0
      · subst hd
        rw [Nat.mul_zero, Nat.add_zero, hx] at he
        cases he
        simpa using hu
      · refine orAbove_false h (by omega) (d - 1) ?_ ?_ e ?_
        · intro t ht
          have := hs (t + 1) (by omega)
          rw [show j + 2 * (t + 1) - 1 = j + 2 + 2 * t - 1 by omega] at this
          exact this
        · intro t ht
          have := hl (t + 1) (by omega)
          rw [show j + 2 * (t + 1) = j + 2 + 2 * t by omega] at this
          exact this
        · rw [show j + 2 + 2 * (d - 1) = j + 2 * d by omega]; exact he

theorem checkOr_false {g : List AEntry} {i : Nat} (h : checkOr g i = ok false) :
    (∀ j, Spec.Alternatives g j i → ∀ e, g[j]? = some e → e.used = false) ∧
    (∀ j < lastIdx g, Spec.Alternatives g i j → ∀ e, g[j]? = some e → e.used = false) := by
  unfold checkOr at h
  rw [bind_eq_ok] at h
  obtain ⟨b, hb, h⟩ := h
  split at h
  · cases h
  · rename_i hbf
    simp only [Bool.not_eq_true] at hbf
    subst hbf
    refine ⟨?_, ?_⟩
    · intro j ⟨d, hd, hj, hs⟩ e he
      exact orBelow_false hb j d hd hj hs e he
    · intro j hj ⟨d, hd, hjd, hs⟩ e he
      refine orAbove_false h (by omega) (d - 1) ?_ ?_ e ?_
      · intro t ht
        have := hs t (by omega)
        rw [show i + 2 * t + 1 = i + 2 + 2 * t - 1 by omega] at this
        exact this
      · intro t ht
        have hlt : i + 2 + 2 * t < lastIdx g := by omega
        have hln : i + 2 + 2 * t < g.length := by
          have : lastIdx g ≤ g.length := List.findIdx_le_length
          omega
        refine ⟨g[i + 2 + 2 * t], List.getElem?_eq_getElem hln, ?_⟩
        have := List.not_of_lt_findIdx (p := fun e : AEntry => decide (e.short = argvLast)) (xs := g) hlt
        simpa using this
      · rw [show i + 2 + 2 * (d - 1) = j by omega]; exact he

theorem Spec.Alternatives.core {g g' : List AEntry} (h : coresOf g = coresOf g') {i j : Nat} (ha : Spec.Alternatives g i j) :
    Spec.Alternatives g' i j := by
  obtain ⟨d, hd, hj, hs⟩ := ha
  refine ⟨d, hd, hj, fun t ht => ?_⟩
  obtain ⟨e, he, hsh⟩ := hs t ht
  have := congrArg (fun l => l[i + 2 * t + 1]?) h
  simp only [coresOf, List.getElem?_map, he, Option.map_some] at this
  cases hg : g'[i + 2 * t + 1]? with
  | none => rw [hg] at this; cases this
  | some e' =>
    rw [hg] at this
    simp only [Option.map_some, Option.some.injEq] at this
    have h2 := congrArg AEntry.short this
    have h2 : e.short = e'.short := h2
    exact ⟨e', rfl, h2 ▸ hsh⟩

theorem Spec.Positional.core {g g' : List AEntry} (h : coresOf g = coresOf g') {i : Nat} (ha : Spec.Positional g i) :
    Spec.Positional g' i := by
  obtain ⟨e, he, hsh⟩ := ha
  have := congrArg (fun l => l[i]?) h
  simp only [coresOf, List.getElem?_map, he, Option.map_some] at this
  cases hg : g'[i]? with
  | none => rw [hg] at this; cases this
  | some e' =>
    rw [hg] at this
    simp only [Option.map_some, Option.some.injEq] at this
    have h2 := congrArg AEntry.short this
    have h2 : e.short = e'.short := h2
    exact ⟨e', hg, h2 ▸ hsh⟩

/-- As long as nothing was wrong, no two alternatives have been given. -/
def OneAlternative (c : List AEntry) (s : AState) : Prop :=
  coresOf s.grid = coresOf c ∧ (s.okay = true → ∀ i j, Spec.Alternatives c i j → j < lastIdx c → Spec.Given s.grid i →
    Spec.Given s.grid j → Spec.Positional c i ∨ Spec.Positional c j)

theorem given_set {g : List AEntry} {i k : Nat} {e e' : AEntry} (he : g[i]? = some e) (h : Spec.Given (g.set i e') k)
    (hk : k ≠ i ∨ e'.used = e.used) : Spec.Given g k := by
  obtain ⟨x, hx, hu⟩ := h
  rw [List.getElem?_set] at hx
  by_cases hik : i = k
  · subst hik
    rw [if_pos rfl] at hx
    split at hx
    · cases hx
      rcases hk with hk | hk
      · exact absurd rfl hk
      · exact ⟨e, he, hk ▸ hu⟩
    · cases hx
  · rw [if_neg hik] at hx
    exact ⟨x, hx, hu⟩

theorem alternatives_inv (cfg : ACfg) (c : List AEntry) : AInv cfg (OneAlternative c) where
  bad s h := ⟨h.1, fun hb => by cases hb⟩
  arg i close s s' hs h := by
    obtain ⟨e, v, h1, h2, h3⟩ := doArg_spec h
    have hcore : coresOf s'.grid = coresOf c := (shape_inv cfg (coresOf c)).arg i close s s' hs.1 h
    refine ⟨hcore, fun hok a b hab hb ga gb => ?_⟩
    obtain ⟨hok0, hor⟩ := h3 hok
    have hc1 : coresOf (s.grid.set i { e with used := true }) = coresOf c := by
      rw [set_coresOf h1 (by rfl)]; exact hs.1
    obtain ⟨below, above⟩ := checkOr_false hor
    have hli := lastIdx_core hc1
    rw [h2] at ga gb
    by_cases hai : a = i
    · subst hai
      have hne : b ≠ a := by obtain ⟨d, hd, hj, _⟩ := hab; omega
      obtain ⟨x, hx, hu⟩ := given_set h1 gb (.inl hne)
      have := above b (by omega) (hab.core hc1.symm) x (by rw [List.getElem?_set, if_neg (Ne.symm hne)]; exact hx)
      rw [this] at hu
      cases hu
    · by_cases hbi : b = i
      · subst hbi
        obtain ⟨x, hx, hu⟩ := given_set h1 ga (.inl hai)
        have := below a (hab.core hc1.symm) x (by rw [List.getElem?_set, if_neg (Ne.symm hai)]; exact hx)
        rw [this] at hu
        cases hu
      · exact hs.2 hok0 a b hab hb (given_set h1 ga (.inl hai)) (given_set h1 gb (.inl hbi))
  value i e v s b hs he _ := by
    refine ⟨by show coresOf (s.grid.set i _) = _; rw [set_coresOf he (by rfl)]; exact hs.1, fun hok x y hxy hy gx gy => ?_⟩
    simp only [Bool.and_eq_true] at hok
    exact hs.2 hok.1 x y hxy hy (given_set he gx (.inr rfl)) (given_set he gy (.inr rfl))
  pos i e v s b hs he hp := by
    have hcore : coresOf (s.grid.set i { e with var := v, used := true }) = coresOf c := by
      rw [set_coresOf he (by rfl)]; exact hs.1
    refine ⟨hcore, fun hok x y hxy hy gx gy => ?_⟩
    simp only [Bool.and_eq_true] at hok
    have hpos : Spec.Positional c i := Spec.Positional.core hs.1 ⟨e, he, hp.1⟩
    by_cases hx : x = i
    · exact .inl (hx ▸ hpos)
    · by_cases hyi : y = i
      · exact .inr (hyi ▸ hpos)
      · exact hs.2 hok.1 x y hxy hy (given_set he gx (.inl hx)) (given_set he gy (.inl hyi))
  push _ h _ := h
  pop _ h _ := h
  stdin _ _ h := h
  files _ _ _ h := h

/-- **C109.** After success no two alternatives (separated by `ARGV_OR` or `ARGV_XOR`) have both been given, wherever the
options came from; except for arguments taken by position, which are not checked. -/
theorem C109_alternatives {cfg : ACfg} {fuel : Nat} {g : List AEntry} {argv : List (List UInt8)} {stdin : List UInt8}
    {fds : Nat} {r : AResult} (h : argvProcess cfg fuel g argv stdin fds = ok r) (hn : r.noError = true)
    (i j : Nat) (hij : Spec.Alternatives g i j) (hj : j < lastIdx g) (hp : ¬ Spec.Positional g i ∧ ¬ Spec.Positional g j) :
    ¬ (Spec.Given r.grid i ∧ Spec.Given r.grid j) := by
  obtain ⟨s, hs, hg, hok, _⟩ := process_inv (alternatives_inv cfg g) h hn (by
    intro g0 cap hpre
    obtain ⟨h1, _, h3⟩ := preprocess_core hpre
    refine ⟨h1, fun _ a b hab hb ga gb => ?_⟩
    obtain ⟨x, hx, hu⟩ := gb
    rw [h3 b hb x hx] at hu
    cases hu)
  intro ⟨gi, gj⟩
  rw [← hg] at gi gj
  rcases hs.2 hok i j hij hj gi gj with hh | hh
  · exact hp.1 hh
  · exact hp.2 hh

/-- **C109.** After success the array is left as the program wrote it, except for the variables and the marks. -/
theorem C109_array {cfg : ACfg} {fuel : Nat} {g : List AEntry} {argv : List (List UInt8)} {stdin : List UInt8}
    {fds : Nat} {r : AResult} (h : argvProcess cfg fuel g argv stdin fds = ok r) (hn : r.noError = true) :
    coresOf r.grid = coresOf g := by
  obtain ⟨s, hs, hg, _⟩ := process_inv (shape_inv cfg (coresOf g)) h hn (by
    intro g0 cap hpre
    exact (preprocess_core hpre).1)
  rw [← hg]; exact hs

theorem checkMand_true : ∀ {g : List AEntry}, checkMand g = ok true → ∀ i < lastIdx g, ∀ e, g[i]? = some e →
    (e.short = argvMand ∨ e.mand = true) → e.used = true
  | [], h => by rw [checkMand] at h; cases h
  | x :: xs, h => by
    intro i hi e he hm
    rw [checkMand] at h
    unfold lastIdx at hi
    rw [List.findIdx_cons] at hi
    split at h
    · rename_i hl
      simp [hl] at hi
    · rename_i hl
      rw [bind_eq_ok] at h
      obtain ⟨b, hb, h⟩ := h
      simp only [hl, decide_false, cond_false] at hi
      injection h with h
      simp only [Bool.and_eq_true, Bool.not_eq_true', Bool.and_eq_false_iff] at h
      obtain ⟨rfl, h⟩ := h
      cases i with
      | zero =>
        simp at he
        subst he
        rcases h with h | h
        · simp at h
          rcases hm with hm | hm
          · exact absurd hm h.1
          · rw [hm] at h; cases h.2
        · simpa using h
      | succ i => exact checkMand_true hb i (by unfold lastIdx; omega) e (by simpa using he) hm

/-- **C109.** After success everything mandatory has been given: the arguments `ARGV_MAND` and the options with
`ARGV_FLAG_MAND`. -/
theorem C109_mandatory {cfg : ACfg} {fuel : Nat} {g : List AEntry} {argv : List (List UInt8)} {stdin : List UInt8}
    {fds : Nat} {r : AResult} (h : argvProcess cfg fuel g argv stdin fds = ok r) (hn : r.noError = true)
    (i : Nat) (hi : i < lastIdx g) (e : AEntry) (he : g[i]? = some e) (hm : e.short = 254 ∨ e.mand = true) :
    Spec.Given r.grid i := by
  have hc := C109_array h hn
  obtain ⟨s, _, hg, _, hmand, _⟩ := process_inv (shape_inv cfg (coresOf g)) h hn (by
    intro g0 cap hpre
    exact (preprocess_core hpre).1)
  rw [hg] at hmand
  have hci := congrArg (fun l => l[i]?) hc
  simp only [coresOf, List.getElem?_map, he, Option.map_some] at hci
  cases hri : r.grid[i]? with
  | none => rw [hri] at hci; cases hci
  | some e' =>
    rw [hri] at hci
    simp only [Option.map_some, Option.some.injEq] at hci
    have h1 := congrArg AEntry.short hci
    have h1 : e'.short = e.short := h1
    have h2 := congrArg AEntry.mand hci
    have h2 : e'.mand = e.mand := h2
    refine ⟨e', hri, checkMand_true hmand i (by rw [lastIdx_core hc]; exact hi) e' hri ?_⟩
    rw [h1, h2]; exact hm

theorem xorRun_spec {g : List AEntry} : ∀ {fuel k : Nat} {u : Bool} {r : Nat × Bool}, xorRun g fuel k u = ok r →
    ∃ d, 1 ≤ d ∧ r.1 + 1 = k + 2 * d ∧ (∀ t, 1 ≤ t → t < d → ∃ e, g[k + 2 * t]? = some e ∧ e.short = 251) ∧
      (∀ e, g[r.1 + 1]? = some e → e.short ≠ 251) ∧
      (r.2 = true → u = true ∨ ∃ t < d, Spec.Given g (k + 2 * t + 1))
  | 0, _, _, _, h => by rw [xorRun] at h; cases h
  | fuel + 1, k, u, r, h => by
    rw [xorRun, bind_eq_ok] at h
    obtain ⟨e, he, h⟩ := h
    rw [bind_eq_ok] at h
    obtain ⟨sep, hsep, h⟩ := h
    have he := entryAt_ok.mp he
    have hsep := entryAt_ok.mp hsep
    split at h
    · rename_i hx
      obtain ⟨d, hd, h1, h2, h3, h4⟩ := xorRun_spec h
      refine ⟨d + 1, by omega, by omega, ?_, h3, ?_⟩
      · intro t ht1 ht
        by_cases ht' : t = 1
        · subst ht'; exact ⟨sep, hsep, hx⟩
        · have := h2 (t - 1) (by omega) (by omega)
          rw [show k + 2 + 2 * (t - 1) = k + 2 * t by omega] at this
          exact this
      · intro hr
        rcases h4 hr with h5 | ⟨t, ht, hg⟩
        · simp only [Bool.or_eq_true] at h5
          rcases h5 with h5 | h5
          · exact .inl h5
          · exact .inr ⟨0, by omega, e, he, h5⟩
        · exact .inr ⟨t + 1, by omega, by rw [show k + 2 * (t + 1) + 1 = k + 2 + 2 * t + 1 by omega]; exact hg⟩
    · rename_i hx
      cases h
      refine ⟨1, by omega, by rfl, fun t _ _ => by omega, ?_, ?_⟩
      · intro e' he'
        rw [hsep] at he'
        cases he'
        exact hx
      · intro hr
        simp only [Bool.or_eq_true] at hr
        rcases hr with h5 | h5
        · exact .inl h5
        · exact .inr ⟨0, by omega, e, he, h5⟩

/-- No two separators stand next to each other. -/
def NoAdjacent (g : List AEntry) : Prop := ∀ i, i + 1 < lastIdx g → ∀ a b, g[i]? = some a → g[i + 1]? = some b →
  ¬ (a.short = 251 ∧ b.short = 251)

theorem checkXor_true {g : List AEntry} (hadj : NoAdjacent g) : ∀ {fuel k : Nat}, checkXor g fuel k = ok true →
    ∀ j, k ≤ j → j < lastIdx g → ∀ e, g[j]? = some e → e.short = 251 → ∃ m, Spec.OneOf g j m ∧ Spec.Given g m
  | 0, _, h => by rw [checkXor] at h; cases h
  | fuel + 1, k, h => by
    intro j hkj hj e he hx
    rw [checkXor, bind_eq_ok] at h
    obtain ⟨x, hxk, h⟩ := h
    have hxk := entryAt_ok.mp hxk
    split at h
    · rename_i hl
      exfalso
      have hlt : k < lastIdx g := by omega
      have := List.not_of_lt_findIdx (p := fun e : AEntry => decide (e.short = argvLast)) (xs := g) hlt
      obtain ⟨hlen, hge⟩ := List.getElem?_eq_some_iff.mp hxk
      rw [hge] at this
      simp [hl] at this
    · split at h
      · rename_i hnx
        by_cases hjk : j = k
        · subst hjk
          rw [hxk] at he
          cases he
          exact absurd hx hnx
        · exact checkXor_true hadj h j (by omega) hj e he hx
      · rename_i hxx
        have hxx : x.short = 251 := by simpa [argvXor] using hxx
        split at h
        · cases h
        · rename_i hk0
          rw [bind_eq_ok] at h
          obtain ⟨below, hb, h⟩ := h
          have hb := entryAt_ok.mp hb
          rw [bind_eq_ok] at h
          obtain ⟨r, hr, h⟩ := h
          split at h
          · rename_i hu
            obtain ⟨d, hd, h1, h2, h3, h4⟩ := xorRun_spec hr
            by_cases hjr : j ≤ r.1
            · have hsep : ∀ t < d, ∃ e, g[k + 2 * t]? = some e ∧ e.short = 251 := by
                intro t ht
                by_cases ht0 : t = 0
                · subst ht0; exact ⟨x, hxk, hxx⟩
                · exact h2 t (by omega) ht
              rcases Nat.mod_two_eq_zero_or_one (j - k) with hev | hod
              · obtain ⟨t, ht⟩ : ∃ t, j = k + 2 * t := ⟨(j - k) / 2, by omega⟩
                rcases h4 hu with hbu | ⟨t', ht', hg⟩
                · refine ⟨k - 1, ⟨t + 1, by omega, .inl ⟨by omega, ?_⟩⟩, below, hb, hbu⟩
                  intro u hu'
                  have := hsep u (by omega)
                  rw [show k - 1 + 2 * u + 1 = k + 2 * u by omega]
                  exact this
                · refine ⟨_, ?_, hg⟩
                  by_cases hlt : t' < t
                  · refine ⟨t - t', by omega, .inl ⟨by omega, ?_⟩⟩
                    intro u hu'
                    have := hsep (t' + 1 + u) (by omega)
                    rw [show k + 2 * t' + 1 + 2 * u + 1 = k + 2 * (t' + 1 + u) by omega]
                    exact this
                  · refine ⟨t' - t + 1, by omega, .inr ⟨by omega, ?_⟩⟩
                    intro u hu'
                    have := hsep (t + u) (by omega)
                    rw [show j + 2 * u = k + 2 * (t + u) by omega]
                    exact this
              · exfalso
                obtain ⟨t, ht⟩ : ∃ t, j = k + 2 * t + 1 := ⟨(j - k) / 2, by omega⟩
                obtain ⟨e', he', hx'⟩ := hsep t (by omega)
                exact hadj (k + 2 * t) (by omega) e' e he' (by rw [← ht]; exact he) ⟨hx', hx⟩
            · exact checkXor_true hadj h j (by omega) hj e he hx
          · cases h

theorem preLoop_adj {n : Nat} : ∀ {g g' : List AEntry} {i : Nat} {prev : Option AEntry} {b1 b2 : Bool},
    preLoop n g i prev b1 b2 = ok (some g') →
    (∀ p e, prev = some p → g[0]? = some e → ¬ (isOr p = true ∧ isOr e = true)) ∧
    ∀ k a b, g[k]? = some a → g[k + 1]? = some b → ¬ (isOr a = true ∧ isOr b = true)
  | [], g', _, _, _, _, h => by simp
  | e :: es, g', i, prev, b1, b2, h => by
    rw [preLoop] at h
    split at h
    · cases h
    split at h
    · cases h
    split at h
    · cases h
    split at h
    · cases h
    split at h
    · cases h
    split at h
    · cases h
    split at h
    · cases h
    rename_i hadj
    rw [bind_eq_ok] at h
    obtain ⟨r, h1, h⟩ := h
    cases r with
    | none => cases h
    | some es' =>
      obtain ⟨h2, h3⟩ := preLoop_adj h1
      refine ⟨?_, ?_⟩
      · intro p x hp hx ⟨h4, h5⟩
        subst hp
        simp at hx
        subst hx
        apply hadj
        simp [h4, h5]
      · intro k a b ha hb
        cases k with
        | zero =>
          simp at ha
          subst ha
          exact h2 e b rfl (by simpa using hb)
        | succ k => exact h3 k a b (by simpa using ha) (by simpa using hb)

theorem preprocess_adj {g g' : List AEntry} (h : preprocess g = ok (some g')) : NoAdjacent g := by
  unfold preprocess at h
  dsimp only at h
  change (if lastIdx g = g.length then ub else preLoop (lastIdx g) (g.take (lastIdx g)) 0 none false false >>= fun r =>
    ok (r.map (· ++ g.drop (lastIdx g)))) = ok (some g') at h
  split at h
  · cases h
  · rw [bind_eq_ok] at h
    obtain ⟨r, h1, h⟩ := h
    cases r with
    | none => cases h
    | some es' =>
      intro i hi a b ha hb ⟨h2, h3⟩
      refine (preLoop_adj h1).2 i a b ?_ ?_ ⟨?_, ?_⟩
      · rw [List.getElem?_take, if_pos (by omega)]; exact ha
      · rw [List.getElem?_take, if_pos (by omega)]; exact hb
      · unfold isOr argvXor; simp [h2]
      · unfold isOr argvXor; simp [h3]

theorem NoAdjacent.core {g g' : List AEntry} (h : coresOf g' = coresOf g) (hg : NoAdjacent g) : NoAdjacent g' := by
  have key : ∀ (i : Nat) (e' : AEntry), g'[i]? = some e' → ∃ e, g[i]? = some e ∧ e.short = e'.short := by
    intro i e' he'
    have hci := congrArg (fun l => l[i]?) h
    simp only [coresOf, List.getElem?_map, he', Option.map_some] at hci
    cases hri : g[i]? with
    | none => rw [hri] at hci; cases hci
    | some e =>
      rw [hri] at hci
      simp only [Option.map_some, Option.some.injEq] at hci
      have h1 := congrArg AEntry.short hci
      exact ⟨e, rfl, h1.symm⟩
  intro i hi a b ha hb
  obtain ⟨a', ha', h1⟩ := key _ _ ha
  obtain ⟨b', hb', h2⟩ := key _ _ hb
  rw [← h1, ← h2]
  exact hg i (by rw [← lastIdx_core h]; exact hi) a' b' ha' hb'

theorem preprocess_some {cfg : ACfg} {fuel : Nat} {g : List AEntry} {argv : List (List UInt8)} {stdin : List UInt8}
    {fds : Nat} {r : AResult} (h : argvProcess cfg fuel g argv stdin fds = ok r) (hn : r.noError = true) :
    ∃ g0, preprocess g = ok (some g0) := by
  unfold argvProcess at h
  split at h
  · cases h
  · rw [bind_eq_ok] at h
    obtain ⟨pr, hp, h⟩ := h
    split at h
    · cases h; cases hn
    · rename_i g0
      exact ⟨g0, hp⟩

/-- **C109.** After success, of every group of entries with `ARGV_XOR` between them at least one has been given. -/
theorem C109_one_of {cfg : ACfg} {fuel : Nat} {g : List AEntry} {argv : List (List UInt8)} {stdin : List UInt8}
    {fds : Nat} {r : AResult} (h : argvProcess cfg fuel g argv stdin fds = ok r) (hn : r.noError = true)
    (k : Nat) (hk : k < lastIdx g) (e : AEntry) (he : g[k]? = some e) (hx : e.short = 251) :
    ∃ j, Spec.OneOf g k j ∧ Spec.Given r.grid j := by
  have hc := C109_array h hn
  obtain ⟨g0, hpre⟩ := preprocess_some h hn
  obtain ⟨s, _, hg, _, _, hxor, _⟩ := process_inv (shape_inv cfg (coresOf g)) h hn (by
    intro g0 cap hpre
    exact (preprocess_core hpre).1)
  rw [hg] at hxor
  have tr : ∀ {a b : List AEntry}, coresOf a = coresOf b → ∀ (i : Nat) (e' : AEntry), a[i]? = some e' → ∃ e, b[i]? = some e ∧ e.short = e'.short := by
    intro a b h i e' he'
    have hci := congrArg (fun l => l[i]?) h
    simp only [coresOf, List.getElem?_map, he', Option.map_some] at hci
    cases hri : b[i]? with
    | none => rw [hri] at hci; cases hci
    | some e =>
      rw [hri] at hci
      simp only [Option.map_some, Option.some.injEq] at hci
      have h1 := congrArg AEntry.short hci
      exact ⟨e, rfl, h1.symm⟩
  obtain ⟨e', he', hs⟩ := tr hc.symm k e he
  obtain ⟨m, hm, hgm⟩ := checkXor_true (NoAdjacent.core hc (preprocess_adj hpre)) hxor k (by omega)
    (by rw [lastIdx_core hc]; exact hk) e' he' (by rw [hs]; exact hx)
  refine ⟨m, ?_, hgm⟩
  obtain ⟨d, hd, hcase⟩ := hm
  refine ⟨d, hd, ?_⟩
  rcases hcase with ⟨h1, h2⟩ | ⟨h1, h2⟩
  · refine .inl ⟨h1, fun t ht => ?_⟩
    obtain ⟨y, hy, hys⟩ := h2 t ht
    obtain ⟨z, hz, hzs⟩ := tr hc _ _ hy
    exact ⟨z, hz, hzs.trans hys⟩
  · refine .inr ⟨h1, fun t ht => ?_⟩
    obtain ⟨y, hy, hys⟩ := h2 t ht
    obtain ⟨z, hz, hzs⟩ := tr hc _ _ hy
    exact ⟨z, hz, hzs.trans hys⟩

/-! ### Examples -/

private def okLine : List (List UInt8) := [ascii "prog", ascii "-vv", ascii "--beta", ascii "-n", ascii "-5", ascii "in", ascii "more"]

/-- The hypotheses of the theorems are met: a successful run, with a group, a mandatory argument and alternatives. -/
example : ∃ r, argvProcess argvCfg 3 argvGrid okLine [] 0 = ok r ∧ r.noError = true ∧ Spec.Given r.grid 2 ∧
    ¬ Spec.Given r.grid 0 ∧ Spec.Given r.grid 6 := by
  refine ⟨argvRun argvGrid okLine, ?_⟩
  decide +kernel

example : Spec.Alternatives argvGrid 0 2 :=
  ⟨1, by omega, rfl, fun t ht => by obtain rfl : t = 0 := by omega
                                    exact ⟨_, rfl, .inr rfl⟩⟩

example : lastIdx argvGrid = 8 := by decide +kernel

private def errLines : List (List (List UInt8)) :=
  [[ascii "prog", ascii "-ab", ascii "in"], [ascii "prog", ascii "in"], [ascii "prog", ascii "-a"],
   [ascii "prog", ascii "-a", ascii "in", ascii "-n"], [ascii "prog", ascii "-a", ascii "in", ascii "-z"]]

/-- Both alternatives; none; no mandatory argument; no value; an unknown option: errors. -/
example : errLines.all (fun l => match argvProcess argvCfg 3 argvGrid l [] 0 with | .ok r => !r.noError | _ => false) = true := by
  decide +kernel

private def orMand : List AEntry :=
  [⟨97, none, 1, false, false, false, some (.one (.num 0))⟩, ⟨252, none, 0, false, false, false, none⟩,
   ⟨254, none, 5, false, false, false, some (.one (.str none))⟩, argvEnd, argvEnd]

/-- **C109 does not hold for arguments by position.** A mandatory argument that is an alternative to an option is accepted
together with it, if the option comes first. -/
theorem C109_positional_violated :
    ∃ (g : List AEntry) (argv : List (List UInt8)) (r : AResult), argvProcess argvCfg 3 g argv [] 0 = ok r ∧
      r.noError = true ∧ Spec.Alternatives g 0 2 ∧ Spec.Given r.grid 0 ∧ Spec.Given r.grid 2 :=
  ⟨orMand,
   [ascii "prog", ascii "-a", ascii "in"], argvRun orMand [ascii "prog", ascii "-a", ascii "in"], by decide +kernel,
   by decide +kernel, ⟨1, by omega, rfl, fun t ht => by obtain rfl : t = 0 := by omega
                                                        exact ⟨_, rfl, .inl rfl⟩⟩, by decide +kernel, by decide +kernel⟩

end Wdns
