import Verif.Props.ArgvMeaning

/-!
# Properties of command lines: which are accepted — C113
-/

namespace Wdns
open Outcome

/-! ### Specification -/

/-- What is said is allowed, one thing after the other (`given`: the entries given so far): an option is no alternative of
an entry given before and, unless repetition is accepted, not given before (except for arrays and counters); an argument by
position has a place. -/
def Spec.Allowed (cfg : ACfg) (g : List AEntry) : List Spec.Item → List Nat → Prop
  | [], _ => True
  | .flag i :: is, given => (∀ j ∈ given, ¬ Spec.Alternatives g j i ∧ ¬ Spec.Alternatives g i j) ∧
      (cfg.multiAccept = true ∨ i ∉ given ∨ ∃ e, g[i]? = some e ∧ (e.array = true ∨ e.ty = 17)) ∧
      Spec.Allowed cfg g is (given ++ [i])
  | .option i _ :: is, given => (∀ j ∈ given, ¬ Spec.Alternatives g j i ∧ ¬ Spec.Alternatives g i j) ∧
      (cfg.multiAccept = true ∨ i ∉ given ∨ ∃ e, g[i]? = some e ∧ (e.array = true ∨ e.ty = 17)) ∧
      Spec.Allowed cfg g is (given ++ [i])
  | .plain _ :: is, given => ∃ i, Spec.receiver g given = some i ∧ Spec.Allowed cfg g is (given ++ [i])

/-! ### Alternatives -/

theorem orBelow_true {g : List AEntry} : ∀ {i : Nat}, orBelow g i = ok true → ∃ j, Spec.Alternatives g j i ∧ Spec.Given g j
  | 0, h => by rw [orBelow] at h; cases h; simp
  | 1, h => by rw [orBelow] at h; cases h; simp
  | k + 2, h => by
    rw [orBelow, bind_eq_ok] at h
    obtain ⟨sep, h1, h⟩ := h
    have h1 := entryAt_ok.mp h1
    split at h
    · cases h
    rename_i hor
    have hor : sep.short = 252 ∨ sep.short = 251 := by
      unfold isOr argvOr argvXor at hor
      exact Decidable.or_iff_not_imp_left.mpr (by simpa using hor)
    rw [bind_eq_ok] at h
    obtain ⟨x, hx, h⟩ := h
    split at h
    · rename_i hu
      exact ⟨k, ⟨1, by omega, by omega, fun t ht => by
        obtain rfl : t = 0 := by omega
        exact ⟨sep, h1, hor⟩⟩, x, entryAt_ok.mp hx, hu⟩
    · obtain ⟨j, ⟨d, hd, hj, hs⟩, hg⟩ := orBelow_true h
      refine ⟨j, ⟨d + 1, by omega, by omega, fun t ht => ?_⟩, hg⟩
      by_cases htd : t < d
      · exact hs t htd
      · rw [show j + 2 * t + 1 = k + 1 by omega]
        exact ⟨sep, h1, hor⟩

theorem orAbove_true {g : List AEntry} : ∀ {fuel j : Nat}, 1 ≤ j → orAbove g fuel j = ok true →
    ∃ d, (∀ t ≤ d, ∃ e, g[j + 2 * t - 1]? = some e ∧ (e.short = 252 ∨ e.short = 251)) ∧
      (∀ t ≤ d, ∃ e, g[j + 2 * t]? = some e ∧ e.short ≠ argvLast) ∧ Spec.Given g (j + 2 * d)
  | 0, j, _, h => by rw [orAbove] at h; cases h
  | fuel + 1, j, hj, h => by
    rw [orAbove, bind_eq_ok] at h
    obtain ⟨x, hx, h⟩ := h
    have hx := entryAt_ok.mp hx
    split at h
    · cases h
    rename_i hnl
    rw [bind_eq_ok] at h
    obtain ⟨sep, h1, h⟩ := h
    have h1 := entryAt_ok.mp h1
    split at h
    · cases h
    split at h
    · cases h
    rename_i hor
    have hor : sep.short = 252 ∨ sep.short = 251 := by
      unfold isOr argvOr argvXor at hor
      exact Decidable.or_iff_not_imp_left.mpr (by simpa using hor)
    split at h
    · rename_i hu
      refine ⟨0, fun t ht => ?_, fun t ht => ?_, x, hx, hu⟩
      · obtain rfl : t = 0 := by omega
        exact ⟨sep, h1, hor⟩
      · obtain rfl : t = 0 := by omega
        exact ⟨x, hx, hnl⟩
    · obtain ⟨d, h2, h3, h4⟩ := orAbove_true (by omega) h
      refine ⟨d + 1, fun t ht => ?_, fun t ht => ?_, ?_⟩
      · cases t with
        | zero => exact ⟨sep, h1, hor⟩
        | succ t =>
          have := h2 t (by omega)
          rw [show j + 2 * (t + 1) - 1 = j + 2 + 2 * t - 1 by omega]
          exact this
      · cases t with
        | zero => exact ⟨x, hx, hnl⟩
        | succ t =>
          have := h3 t (by omega)
          rw [show j + 2 * (t + 1) = j + 2 + 2 * t by omega]
          exact this
      · rw [show j + 2 * (d + 1) = j + 2 + 2 * d by omega]
        exact h4

/-- No separator follows `ARGV_LAST` before the entry that is looked at. -/
theorem lt_last {g : List AEntry} {i : Nat} (hi : i < lastIdx g) : ∀ d,
    (∀ t < d, ∃ e, g[i + 2 * t + 1]? = some e ∧ (e.short = 252 ∨ e.short = 251)) →
    (∀ t < d, ∃ e, g[i + 2 * t + 2]? = some e ∧ e.short ≠ argvLast) → i + 2 * d < lastIdx g
  | 0, _, _ => by omega
  | d + 1, h1, h2 => by
    have ih := lt_last hi d (fun t ht => h1 t (by omega)) (fun t ht => h2 t (by omega))
    obtain ⟨e1, he1, hs1⟩ := h1 d (by omega)
    obtain ⟨e2, he2, hs2⟩ := h2 d (by omega)
    have key : ∀ (k : Nat) (e : AEntry), g[k]? = some e → e.short ≠ argvLast → k ≤ lastIdx g → k < lastIdx g := by
      intro k e he hs hk
      rcases Nat.lt_or_eq_of_le hk with h | h
      · exact h
      · exfalso
        obtain ⟨hlen, hge⟩ := List.getElem?_eq_some_iff.mp he
        have := at_last (g := g) (by omega)
        subst h
        rw [hge] at this
        exact hs this
    have h3 := key _ e1 he1 (by rcases hs1 with h | h <;> rw [h] <;> decide) (by omega)
    have h4 := key _ e2 he2 hs2 (by omega)
    omega

theorem checkOr_iff {g : List AEntry} {i : Nat} {b : Bool} (hi : i < lastIdx g) (h : checkOr g i = ok b) :
    b = true ↔ ∃ j < lastIdx g, (Spec.Alternatives g j i ∨ Spec.Alternatives g i j) ∧ Spec.Given g j := by
  constructor
  · rintro rfl
    unfold checkOr at h
    rw [bind_eq_ok] at h
    obtain ⟨c, hc, h⟩ := h
    split at h
    · rename_i hct
      subst hct
      obtain ⟨j, hj, hg⟩ := orBelow_true hc
      refine ⟨j, ?_, .inl hj, hg⟩
      obtain ⟨d, hd, hjd, _⟩ := hj
      omega
    · obtain ⟨d, h1, h2, h3⟩ := orAbove_true (by omega) h
      have e1 : ∀ t < d + 1, ∃ e, g[i + 2 * t + 1]? = some e ∧ (e.short = 252 ∨ e.short = 251) := by
        intro t ht
        have := h1 t (by omega)
        rw [show i + 2 + 2 * t - 1 = i + 2 * t + 1 by omega] at this
        exact this
      have e2 : ∀ t < d + 1, ∃ e, g[i + 2 * t + 2]? = some e ∧ e.short ≠ argvLast := by
        intro t ht
        have := h2 t (by omega)
        rw [show i + 2 + 2 * t = i + 2 * t + 2 by omega] at this
        exact this
      refine ⟨i + 2 + 2 * d, ?_, .inr ⟨d + 1, by omega, by omega, e1⟩, h3⟩
      have := lt_last hi (d + 1) e1 e2
      omega
  · rintro ⟨j, hj, hab, x, hx, hu⟩
    cases b with
    | true => rfl
    | false =>
      obtain ⟨below, above⟩ := checkOr_false h
      rcases hab with hab | hab
      · rw [below j hab x hx] at hu; cases hu
      · rw [above j hj hab x hx] at hu; cases hu

/-! ### One thing after the other -/

theorem Told.given {cfg : ACfg} {g : List AEntry} {gs : List (Nat × Option (List UInt8))} {s : AState} (H : Told cfg g gs s)
    (hl : lastIdx g < g.length) {j : Nat} (hj : j < lastIdx g) : Spec.Given s.grid j ↔ j ∈ gs.map Prod.fst := by
  obtain ⟨x, hx, hu, _⟩ := H.at j hj g[j] (List.getElem?_eq_getElem (by omega))
  rw [← List.contains_iff_mem, ← hu]
  constructor
  · rintro ⟨y, hy, h⟩
    rw [hx] at hy
    cases hy
    exact h
  · intro h
    exact ⟨x, hx, h⟩

/-- Whether an option is accepted. -/
theorem Told.clash {cfg : ACfg} {g : List AEntry} {gs : List (Nat × Option (List UInt8))} {s : AState} (H : Told cfg g gs s)
    (hl : lastIdx g < g.length) (hgs : ∀ j ∈ gs.map Prod.fst, j < lastIdx g) {i : Nat} (hi : i < lastIdx g) {x : AEntry}
    (hx : s.grid[i]? = some x) {b : Bool} (h : checkOr (s.grid.set i { x with used := true }) i = ok b) :
    b = false ↔ ∀ j ∈ gs.map Prod.fst, ¬ Spec.Alternatives g j i ∧ ¬ Spec.Alternatives g i j := by
  have hcore : coresOf (s.grid.set i { x with used := true }) = coresOf g := (set_coresOf hx (e' := { x with used := true }) rfl).trans H.core
  have key := checkOr_iff (by rw [lastIdx_core hcore]; exact hi) h
  have hgv : ∀ j < lastIdx g, j ≠ i → (Spec.Given (s.grid.set i { x with used := true }) j ↔ j ∈ gs.map Prod.fst) := by
    intro j hj hne
    rw [← H.given hl hj]
    constructor
    · exact fun h => given_set hx h (.inl hne)
    · rintro ⟨y, hy, hu⟩
      exact ⟨y, by rw [List.getElem?_set_ne (Ne.symm hne)]; exact hy, hu⟩
  have ne_of : ∀ {a b : Nat}, Spec.Alternatives g a b → a ≠ b := by
    rintro a b ⟨d, hd, h, _⟩
    omega
  rw [lastIdx_core hcore] at key
  constructor
  · rintro rfl j hj
    have hjl := hgs j hj
    constructor
    · intro hab
      have := key.mpr ⟨j, hjl, .inl (hab.core hcore.symm), (hgv j hjl (ne_of hab)).mpr hj⟩
      cases this
    · intro hab
      have := key.mpr ⟨j, hjl, .inr (hab.core hcore.symm), (hgv j hjl (ne_of hab).symm).mpr hj⟩
      cases this
  · intro hno
    cases b with
    | false => rfl
    | true =>
      obtain ⟨j, hj, hab, hg⟩ := key.mp rfl
      exfalso
      rcases hab with hab | hab
      · have hab := hab.core hcore
        exact (hno j ((hgv j hj (ne_of hab)).mp hg)).1 hab
      · have hab := hab.core hcore
        exact (hno j ((hgv j hj (ne_of hab).symm).mp hg)).2 hab

/-- What an option adds to the conditions. -/
def OptionOk (cfg : ACfg) (g : List AEntry) (i : Nat) (given : List Nat) : Prop :=
  (∀ j ∈ given, ¬ Spec.Alternatives g j i ∧ ¬ Spec.Alternatives g i j) ∧
  (cfg.multiAccept = true ∨ i ∉ given ∨ ∃ e, g[i]? = some e ∧ (e.array = true ∨ e.ty = 17))

theorem Told.argOkay {cfg : ACfg} {g : List AEntry} {gs : List (Nat × Option (List UInt8))} {s s' : AState} (H : Told cfg g gs s)
    (hl : lastIdx g < g.length) (hgs : ∀ j ∈ gs.map Prod.fst, j < lastIdx g) {i : Nat} (hi : i < lastIdx g) {e : AEntry}
    (he : g[i]? = some e) (hty : 1 ≤ e.ty ∧ e.ty ≤ 22) {close : Option (List UInt8)} (h : doArg cfg i close s = ok s') :
    s'.okay = true ↔ s.okay = true ∧ OptionOk cfg g i (gs.map Prod.fst) := by
  obtain ⟨x, hx, hxu, _⟩ := H.at i hi e he
  obtain ⟨y, hy, hc⟩ := get_core H.core hx
  rw [he] at hy
  cases hy
  have hxt := congrArg AEntry.ty hc
  have hxt : x.ty = e.ty := hxt
  have hxa := congrArg AEntry.array hc
  have hxa : x.array = e.array := hxa
  unfold doArg at h
  rw [entryAt_ok.mpr hx, ok_bind] at h
  dsimp only at h
  rw [bind_eq_ok] at h
  obtain ⟨clash, hcl, h⟩ := h
  have hclash := H.clash hl hgs hi hx hcl
  have key : (s.okay && !(!cfg.multiAccept && x.used && !x.array && decide (x.ty ≠ 17)) && !clash) = true ↔
      s.okay = true ∧ OptionOk cfg g i (gs.map Prod.fst) := by
    unfold OptionOk
    rw [← hclash, hxt, hxa, hxu]
    simp only [Bool.and_eq_true, Bool.not_eq_true', Bool.and_eq_false_iff, decide_eq_false_iff_not, ne_eq, Decidable.not_not,
      he, Option.some.injEq, exists_eq_left', ← List.contains_iff_mem, Bool.not_eq_true, Bool.not_eq_false']
    constructor
    · rintro ⟨⟨h1, h2⟩, h3⟩
      refine ⟨h1, h3, ?_⟩
      rcases h2 with ((h2 | h2) | h2) | h2
      · exact .inl h2
      · exact .inr (.inl h2)
      · exact .inr (.inr (.inl h2))
      · exact .inr (.inr (.inr h2))
    · rintro ⟨h1, h3, h2⟩
      refine ⟨⟨h1, ?_⟩, h3⟩
      rcases h2 with h2 | h2 | h2 | h2
      · exact .inl (.inl (.inl h2))
      · exact .inl (.inl (.inr h2))
      · exact .inl (.inr h2)
      · exact .inr h2
  split at h
  · rw [bind_eq_ok] at h
    obtain ⟨r, hr, h⟩ := h
    have hr1 := stringToValue_true hr (by dsimp only; rw [hxt]; exact hty)
    cases h
    dsimp only
    rw [hr1, Bool.and_true]
    exact key
  · split at h
    · cases h
      exact key
    · cases h

theorem Told.nextOkay {cfg : ACfg} {g : List AEntry} {gs : List (Nat × Option (List UInt8))} {s s1 s2 : AState} (H : Told cfg g gs s)
    {i : Nat} (hi : i < lastIdx g) {e : AEntry} (he : g[i]? = some e) (hty : 1 ≤ e.ty ∧ e.ty ≤ 22)
    (ha : hasArg e.ty = true) (h1 : doArg cfg i none s = ok s1) {fileK : List UInt8 → AState → Outcome AState}
    {t : List UInt8} (h2 : doValue cfg fileK t s1 = ok s2) : s2.okay = s1.okay := by
  obtain ⟨x, hx, hxt⟩ := H.entry hi he
  have hlt : i < s.grid.length := by
    rcases Nat.lt_or_ge i s.grid.length with h | h
    · exact h
    · rw [List.getElem?_eq_none h] at hx; cases hx
  unfold doArg at h1
  rw [entryAt_ok.mpr hx, ok_bind] at h1
  dsimp only at h1
  rw [bind_eq_ok] at h1
  obtain ⟨clash, _, h1⟩ := h1
  rw [if_neg (by rw [hxt, ha]; simp)] at h1
  split at h1
  · cases h1
    unfold doValue at h2
    dsimp only at h2
    rw [bind_eq_ok] at h2
    obtain ⟨e0, he0, h2⟩ := h2
    have hcore : coresOf (s.grid.set i { x with used := true }) = coresOf g := (set_coresOf hx (e' := { x with used := true }) rfl).trans H.core
    have h0 : e0.short ≠ argvLast := by
      have he0 := entryAt_ok.mp he0
      have hl0 : 0 < lastIdx (s.grid.set i { x with used := true }) := by rw [lastIdx_core hcore]; omega
      have hlen : 0 < (s.grid.set i { x with used := true }).length := by simp; omega
      have := before_last hl0 hlen
      rw [List.getElem?_eq_getElem hlen] at he0
      cases he0
      exact this
    have hq : (s.queue ++ [some i])[s.tail]? = some (some i) := by
      rw [← H.free]; simp
    rw [if_pos ⟨h0, by simp [H.free]⟩, hq] at h2
    dsimp only at h2
    rw [entryAt_ok.mpr (List.getElem?_set_self hlt), ok_bind, bind_eq_ok] at h2
    obtain ⟨r, hr, h2⟩ := h2
    have hr1 := stringToValue_true hr (by dsimp only; rw [hxt]; exact hty)
    cases h2
    dsimp only
    rw [hr1, Bool.and_true]
  · cases h1

theorem Told.plainOkay {cfg : ACfg} {g : List AEntry} {gs : List (Nat × Option (List UInt8))} {s s' : AState} (H : Told cfg g gs s)
    (hl : lastIdx g ≤ g.length) (hg : Spec.Typed g) {fileK : List UInt8 → AState → Outcome AState} {t : List UInt8}
    (h : doValue cfg fileK t s = ok s') :
    s'.okay = true ↔ s.okay = true ∧ ∃ i, Spec.receiver g (gs.map Prod.fst) = some i := by
  unfold doValue at h
  rw [bind_eq_ok] at h
  obtain ⟨e0, _, h⟩ := h
  rw [if_neg (by rw [H.free]; simp), bind_eq_ok] at h
  obtain ⟨m, hm, h⟩ := h
  have hm' := H.scan hl 254 hm
  have step : ∀ (c : UInt8) (i : Nat), (c = 254 ∨ c = 253) → scanGrid (fun e => e.short = c && (!e.used || e.array)) s.grid 0 = ok (some i) →
      (entryAt s.grid i >>= fun e => stringToValue cfg (some t) e >>= fun r =>
        ok { s with grid := s.grid.set i { r.2 with used := true }, okay := s.okay && r.1 }) = ok s' →
      s'.okay = s.okay := by
    intro c i hc hsc h
    have hf := H.scan hl c hsc
    have hi := List.mem_of_find?_eq_some hf.symm
    rw [List.mem_filter] at hi
    have hi1 : i < lastIdx g := by simpa using hi.1
    have hlt : i < g.length := by omega
    have hge := List.getElem?_eq_getElem hlt
    have hs : g[i].short = c := by
      have := hi.2
      rw [hge] at this
      simpa using this
    have hty := hg i hi1 _ hge (by rw [hs]; rcases hc with rfl | rfl <;> decide) (by rw [hs]; rcases hc with rfl | rfl <;> decide)
    obtain ⟨x, hx, hxt⟩ := H.entry hi1 hge
    rw [entryAt_ok.mpr hx, ok_bind, bind_eq_ok] at h
    obtain ⟨r, hr, h⟩ := h
    have hr1 := stringToValue_true hr (by rw [hxt]; exact hty)
    cases h
    dsimp only
    rw [hr1, Bool.and_true]
  unfold Spec.receiver Spec.positions
  rw [List.find?_append]
  cases m with
  | some i =>
    rw [← hm', step 254 i (.inl rfl) hm h]
    simp
  | none =>
    rw [← hm']
    dsimp only at h
    rw [bind_eq_ok] at h
    obtain ⟨m2, hm2, h⟩ := h
    have hm2' := H.scan hl 253 hm2
    rw [Option.none_or]
    cases m2 with
    | some i =>
      rw [← hm2', step 253 i (.inr rfl) hm2 h]
      simp
    | none =>
      rw [← hm2']
      cases h
      simp

/-! ### Whole lines -/

theorem allowed_append (cfg : ACfg) (g : List AEntry) : ∀ (as bs : List Spec.Item) (given : List Nat),
    Spec.Allowed cfg g (as ++ bs) given ↔
      Spec.Allowed cfg g as given ∧ Spec.Allowed cfg g bs (given ++ (Spec.gifts g as given).map Prod.fst)
  | [], bs, given => by simp [Spec.Allowed, Spec.gifts]
  | .flag i :: as, bs, given => by
    rw [List.cons_append, Spec.Allowed, Spec.Allowed, allowed_append cfg g as bs, Spec.gifts]
    simp [and_assoc]
  | .option i t :: as, bs, given => by
    rw [List.cons_append, Spec.Allowed, Spec.Allowed, allowed_append cfg g as bs, Spec.gifts]
    simp [and_assoc]
  | .plain t :: as, bs, given => by
    rw [List.cons_append, Spec.Allowed, Spec.Allowed, Spec.gifts]
    cases Spec.receiver g given with
    | none => simp
    | some i =>
      simp only [Option.some.injEq, exists_eq_left', allowed_append cfg g as bs]
      simp

theorem receiver_lt {g : List AEntry} {given : List Nat} {i : Nat} (h : Spec.receiver g given = some i) : i < lastIdx g := by
  have := List.mem_of_find?_eq_some h
  unfold Spec.positions at this
  simp only [List.mem_append, List.mem_filter, List.mem_range] at this
  rcases this with h | h <;> exact h.1

theorem gifts_lt {g : List AEntry} : ∀ {as : List Spec.Item} {ws : List (List UInt8)}, Spec.Line g as ws → ∀ (given : List Nat),
    ∀ j ∈ (Spec.gifts g as given).map Prod.fst, j < lastIdx g := by
  intro as ws h
  induction h with
  | nil => intro given j hj; simp [Spec.gifts] at hj
  | @cons a as w ws h hs ih =>
    intro given j hj
    cases h with
    | flag i w hn _ =>
      rw [Spec.gifts, List.map_cons, List.mem_cons] at hj
      rcases hj with rfl | hj
      · exact hn.lt
      · exact ih _ j hj
    | next i w t hn _ _ =>
      rw [Spec.gifts, List.map_cons, List.mem_cons] at hj
      rcases hj with rfl | hj
      · exact hn.lt
      · exact ih _ j hj
    | number i w c cs hn _ _ _ _ =>
      rw [Spec.gifts, List.map_cons, List.mem_cons] at hj
      rcases hj with rfl | hj
      · exact hn.lt
      · exact ih _ j hj
    | close i w t hn =>
      rw [Spec.gifts, List.map_cons, List.mem_cons] at hj
      rcases hj with rfl | hj
      · exact hn.lt
      · exact ih _ j hj
    | plain t _ =>
      rw [Spec.gifts] at hj
      cases hr : Spec.receiver g given with
      | none => rw [hr] at hj; exact ih _ j hj
      | some i =>
        rw [hr] at hj
        dsimp only at hj
        rw [List.map_cons, List.mem_cons] at hj
        rcases hj with rfl | hj
        · exact receiver_lt hr
        · exact ih _ j hj

theorem Told.saysOkay {cfg : ACfg} (hcl : cfg.closeEnable = true) {g : List AEntry} (hl : lastIdx g < g.length) (hg : Spec.Typed g)
    {fileK : List UInt8 → AState → Outcome AState} {a : Spec.Item} {ws : List (List UInt8)} (ha : Spec.Says g a ws)
    {gs : List (Nat × Option (List UInt8))} (hgs : ∀ j ∈ gs.map Prod.fst, j < lastIdx g) {s : AState} (H : Told cfg g gs s)
    {rest : List (List UInt8)} {r : AState × List (List UInt8)} (h : doList cfg fileK (ws ++ rest) false s = ok r) :
    ∃ s' r', Told cfg g (gs ++ Spec.gifts g [a] (gs.map Prod.fst)) s' ∧
      (s'.okay = true ↔ s.okay = true ∧ Spec.Allowed cfg g [a] (gs.map Prod.fst)) ∧
      doList cfg fileK rest false s' = ok r' ∧ r'.1 = r.1 := by
  cases ha with
  | flag i w hn hf =>
    obtain ⟨e, he, hty⟩ := hn.typed hg
    rw [List.singleton_append, doList_names hn none (punch_none cfg hn.noEq) (List.prefix_rfl) hl H.core, bind_eq_ok] at h
    obtain ⟨s', h1, h⟩ := h
    rw [bind_eq_ok] at h
    obtain ⟨r', h2, h⟩ := h
    cases h
    refine ⟨s', r', by simpa [Spec.gifts] using H.arg hn.lt he hty (.inr (hf e he)) h1, ?_, h2, rfl⟩
    rw [H.argOkay hl hgs hn.lt he hty h1]
    simp only [Spec.Allowed, OptionOk, and_true]
  | next i w t hn hf ht =>
    obtain ⟨e, he, hty⟩ := hn.typed hg
    rw [List.cons_append, doList_names hn none (punch_none cfg hn.noEq) (List.prefix_rfl) hl H.core, bind_eq_ok] at h
    obtain ⟨s1, h1, h⟩ := h
    rw [bind_eq_ok] at h
    obtain ⟨r1, h2, h⟩ := h
    cases h
    rw [List.singleton_append, doList_word ht, bind_eq_ok] at h2
    obtain ⟨s2, h3, h2⟩ := h2
    rw [bind_eq_ok] at h2
    obtain ⟨r', h4, h2⟩ := h2
    cases h2
    refine ⟨s2, r', by simpa [Spec.gifts] using H.next hn.lt he hty (hf e he) h1 h3, ?_, h4, rfl⟩
    rw [H.nextOkay hn.lt he hty (hf e he) h1 h3, H.argOkay hl hgs hn.lt he hty h1]
    simp only [Spec.Allowed, OptionOk, and_true]
  | number i w c cs hn hf hc hd ho =>
    obtain ⟨e, he, hty⟩ := hn.typed hg
    rw [List.cons_append, doList_names hn none (punch_none cfg hn.noEq) (List.prefix_rfl) hl H.core, bind_eq_ok] at h
    obtain ⟨s1, h1, h⟩ := h
    rw [bind_eq_ok] at h
    obtain ⟨r1, h2, h⟩ := h
    cases h
    rw [List.singleton_append, doList_number hc, bind_eq_ok] at h2
    obtain ⟨s2, h3, h2⟩ := h2
    rw [bind_eq_ok] at h2
    obtain ⟨r', h4, h2⟩ := h2
    cases h2
    have ha' : hasArg e.ty = true := by
      have : e.ty = 6 ∨ e.ty = 8 ∨ e.ty = 10 ∨ e.ty = 12 ∨ e.ty = 13 := by simpa using hf e he
      rcases this with h | h | h | h | h <;> rw [h] <;> rfl
    have h3' := H.number hl hn.lt he (hf e he) h1 hd ho fileK h3
    refine ⟨s2, r', by simpa [Spec.gifts] using H.next hn.lt he hty ha' h1 h3', ?_, h4, rfl⟩
    rw [H.nextOkay hn.lt he hty ha' h1 h3', H.argOkay hl hgs hn.lt he hty h1]
    simp only [Spec.Allowed, OptionOk, and_true]
  | close i w t hn =>
    obtain ⟨e, he, hty⟩ := hn.typed hg
    rw [List.singleton_append, doList_names hn (some t) (punch_close hcl hn.noEq t) (List.prefix_append _ _) hl H.core, bind_eq_ok] at h
    obtain ⟨s', h1, h⟩ := h
    rw [bind_eq_ok] at h
    obtain ⟨r', h2, h⟩ := h
    cases h
    refine ⟨s', r', by simpa [Spec.gifts] using H.arg hn.lt he hty (.inl rfl) h1, ?_, h2, rfl⟩
    rw [H.argOkay hl hgs hn.lt he hty h1]
    simp only [Spec.Allowed, OptionOk, and_true]
  | plain t ht =>
    rw [List.singleton_append, doList_word ht, bind_eq_ok] at h
    obtain ⟨s', h1, h⟩ := h
    rw [bind_eq_ok] at h
    obtain ⟨r', h2, h⟩ := h
    cases h
    refine ⟨s', r', ?_, ?_, h2, rfl⟩
    · have := H.plain (by omega) hg h1
      rw [Spec.gifts]
      cases hr : Spec.receiver g (gs.map Prod.fst) <;> rw [hr] at this <;> exact this
    · rw [H.plainOkay (by omega) hg h1]
      simp only [Spec.Allowed, and_true]

theorem Told.lineOkay {cfg : ACfg} (hcl : cfg.closeEnable = true) {g : List AEntry} (hl : lastIdx g < g.length) (hg : Spec.Typed g)
    {fileK : List UInt8 → AState → Outcome AState} {as : List Spec.Item} {ws : List (List UInt8)} (ha : Spec.Line g as ws) :
    ∀ {gs : List (Nat × Option (List UInt8))}, (∀ j ∈ gs.map Prod.fst, j < lastIdx g) → ∀ {s : AState}, Told cfg g gs s →
    ∀ {rest : List (List UInt8)} {r : AState × List (List UInt8)}, doList cfg fileK (ws ++ rest) false s = ok r →
    ∃ s' r', Told cfg g (gs ++ Spec.gifts g as (gs.map Prod.fst)) s' ∧
      (s'.okay = true ↔ s.okay = true ∧ Spec.Allowed cfg g as (gs.map Prod.fst)) ∧
      doList cfg fileK rest false s' = ok r' ∧ r'.1 = r.1 := by
  induction ha with
  | nil =>
    intro gs hgs s H rest r h
    exact ⟨s, r, by simpa [Spec.gifts] using H, by simp [Spec.Allowed], h, rfl⟩
  | @cons a as w ws h1 hs ih =>
    intro gs hgs s H rest r h
    rw [List.append_assoc] at h
    obtain ⟨s1, r1, H1, k1, h2, e1⟩ := H.saysOkay hcl hl hg h1 hgs h
    have hgs1 : ∀ j ∈ (gs ++ Spec.gifts g [a] (gs.map Prod.fst)).map Prod.fst, j < lastIdx g := by
      intro j hj
      rw [List.map_append, List.mem_append] at hj
      rcases hj with hj | hj
      · exact hgs j hj
      · have hone : Spec.Line g [a] (w ++ []) := .cons h1 .nil
        exact gifts_lt hone _ j hj
    obtain ⟨s2, r2, H2, k2, h3, e2⟩ := ih hgs1 H1 h2
    have ga := gifts_append g [a] as (gs.map Prod.fst)
    have la := allowed_append cfg g [a] as (gs.map Prod.fst)
    rw [List.singleton_append] at ga la
    refine ⟨s2, r2, ?_, ?_, h3, e2.trans e1⟩
    · rw [ga]
      simpa using H2
    · rw [k2, k1, la, and_assoc, List.map_append]

theorem Told.restOkay {cfg : ACfg} (hlt : cfg.lastToggle = false) {g : List AEntry} (hl : lastIdx g < g.length) (hg : Spec.Typed g)
    {fileK : List UInt8 → AState → Outcome AState} : ∀ (ts : List (List UInt8))
    {gs : List (Nat × Option (List UInt8))} {s : AState}, Told cfg g gs s →
    ∀ {r : AState × List (List UInt8)}, doList cfg fileK ts true s = ok r →
    (r.1.okay = true ↔ s.okay = true ∧ Spec.Allowed cfg g (ts.map Spec.Item.plain) (gs.map Prod.fst))
  | [], gs, s, H, r, h => by
    rw [doList] at h
    cases h
    simp [Spec.Allowed]
  | t :: ts, gs, s, H, r, h => by
    rw [doList, if_neg (by rw [hlt]; simp), if_neg (by simp), if_neg (by simp), if_neg (by simp), bind_eq_ok] at h
    obtain ⟨s1, h1, h⟩ := h
    rw [bind_eq_ok] at h
    obtain ⟨r1, h2, h⟩ := h
    cases h
    have H1 := H.plain (by omega) hg h1
    have k1 := H.plainOkay (by omega) hg h1
    have k2 := Told.restOkay hlt hl hg ts H1 h2
    dsimp only
    rw [List.map_cons, Spec.Allowed, k2, k1]
    cases hr : Spec.receiver g (gs.map Prod.fst) with
    | none => simp
    | some i => simp

/-! ### The final checks -/

theorem checkMand_iff : ∀ {g : List AEntry} {b : Bool}, checkMand g = ok b → (b = true ↔ ∀ i < lastIdx g, ∀ e, g[i]? = some e →
    (e.short = argvMand ∨ e.mand = true) → e.used = true)
  | [], _, h => by rw [checkMand] at h; cases h
  | x :: xs, b, h => by
    constructor
    · rintro rfl
      exact checkMand_true h
    · intro hall
      rw [checkMand] at h
      rw [lastIdx_cons] at hall
      split at h
      · cases h; rfl
      · rename_i hl
        rw [if_neg hl] at hall
        rw [bind_eq_ok] at h
        obtain ⟨b', hb, h⟩ := h
        cases h
        have h1 : b' = true := (checkMand_iff hb).mpr fun i hi e he hm => hall (i + 1) (by omega) e (by simpa using he) hm
        have h0 := hall 0 (by omega) x rfl
        rw [h1]
        cases hu : x.used with
        | true => simp
        | false =>
          rw [hu] at h0
          by_cases hm : x.short = argvMand ∨ x.mand = true
          · exact absurd (h0 hm) (by simp)
          · simp only [not_or, Bool.not_eq_true] at hm
            simp [hm.1, hm.2]

theorem xorRun_used {g : List AEntry} : ∀ {fuel k : Nat} {u : Bool} {r : Nat × Bool}, xorRun g fuel k u = ok r → r.2 = false →
    u = false ∧ ∀ t, k + 2 * t + 1 ≤ r.1 → ¬ Spec.Given g (k + 2 * t + 1)
  | 0, _, _, _, h, _ => by rw [xorRun] at h; cases h
  | fuel + 1, k, u, r, h, hr => by
    rw [xorRun, bind_eq_ok] at h
    obtain ⟨e, he, h⟩ := h
    rw [bind_eq_ok] at h
    obtain ⟨sep, hsep, h⟩ := h
    have he := entryAt_ok.mp he
    split at h
    · obtain ⟨h1, h2⟩ := xorRun_used h hr
      simp only [Bool.or_eq_false_iff] at h1
      refine ⟨h1.1, fun t ht => ?_⟩
      cases t with
      | zero =>
        rintro ⟨y, hy, hu⟩
        rw [Nat.mul_zero, Nat.add_zero, he] at hy
        cases hy
        rw [h1.2] at hu
        cases hu
      | succ t =>
        have := h2 t (by omega)
        rw [show k + 2 * (t + 1) + 1 = k + 2 + 2 * t + 1 by omega]
        exact this
    · cases h
      simp only [Bool.or_eq_false_iff] at hr
      refine ⟨hr.1, fun t ht => ?_⟩
      dsimp only at ht
      obtain rfl : t = 0 := by omega
      rintro ⟨y, hy, hu⟩
      rw [Nat.mul_zero, Nat.add_zero, he] at hy
      cases hy
      rw [hr.2] at hu
      cases hu

theorem checkXor_false {g : List AEntry} (hadj : NoAdjacent g) (hx : XorInside g) : ∀ {fuel k : Nat}, checkXor g fuel k = ok false →
    (∀ m, m + 1 = k → ∀ x, g[m]? = some x → x.short ≠ 251) → (∀ m, m + 2 = k → ∀ x y, g[m]? = some x → g[k]? = some y →
      ¬ (x.short = 251 ∧ y.short = 251)) → k ≤ lastIdx g →
    ∃ j < lastIdx g, ∃ e, g[j]? = some e ∧ e.short = 251 ∧ ∀ m, Spec.OneOf g j m → ¬ Spec.Given g m
  | 0, _, h, _, _, _ => by rw [checkXor] at h; cases h
  | fuel + 1, k, h, hp1, hp2, hk => by
    rw [checkXor, bind_eq_ok] at h
    obtain ⟨x, hxk, h⟩ := h
    have hxk := entryAt_ok.mp hxk
    split at h
    · cases h
    rename_i hnl
    have hkl : k < lastIdx g := by
      rcases Nat.lt_or_eq_of_le hk with h | h
      · exact h
      · exfalso
        obtain ⟨hlen, hge⟩ := List.getElem?_eq_some_iff.mp hxk
        have := at_last (g := g) (by omega)
        subst h
        rw [hge] at this
        exact hnl this
    split at h
    · rename_i hnx
      have hnx : x.short ≠ 251 := hnx
      refine checkXor_false hadj hx h ?_ ?_ (by omega)
      · intro m hm y hy
        obtain rfl : m = k := by omega
        rw [hxk] at hy
        cases hy
        exact hnx
      · intro m hm y z hy hz ⟨h1, _⟩
        exact hp1 m (by omega) y hy h1
    · rename_i hxx
      have hxx : x.short = 251 := by simpa [argvXor] using hxx
      split at h
      · cases h
      rename_i hk0
      rw [bind_eq_ok] at h
      obtain ⟨below, hb, h⟩ := h
      have hb := entryAt_ok.mp hb
      rw [bind_eq_ok] at h
      obtain ⟨r, hr, h⟩ := h
      obtain ⟨d, hd, h1, h2, h3, h4⟩ := xorRun_spec hr
      have hsep : ∀ t < d, ∃ e, g[k + 2 * t]? = some e ∧ e.short = 251 := by
        intro t ht
        by_cases ht0 : t = 0
        · subst ht0; exact ⟨x, hxk, hxx⟩
        · exact h2 t (by omega) ht
      split at h
      · -- the run is passed over
        have hin : ∀ t < d, k + 2 * t + 1 < lastIdx g := by
          intro t
          induction t with
          | zero => intro _; exact (hx k hkl x hxk hxx).2
          | succ t ih =>
            intro ht
            have := ih (by omega)
            obtain ⟨e, he, hs⟩ := hsep (t + 1) ht
            have hlt : k + 2 * (t + 1) < lastIdx g := by
              rcases Nat.lt_or_eq_of_le (show k + 2 * (t + 1) ≤ lastIdx g by omega) with h | h
              · exact h
              · exfalso
                obtain ⟨hlen, hge⟩ := List.getElem?_eq_some_iff.mp he
                have := at_last (g := g) (by omega)
                have h' := List.getElem?_eq_getElem (l := g) (i := lastIdx g) (by omega)
                rw [h, h'] at he
                cases he
                rw [this] at hs
                cases hs
            exact (hx _ hlt e he hs).2
        have hrl := hin (d - 1) (by omega)
        refine checkXor_false hadj hx h ?_ ?_ (by omega)
        · intro m hm y hy hs
          obtain ⟨e, he, hes⟩ := hsep (d - 1) (by omega)
          exact hadj (k + 2 * (d - 1)) (by omega) e y he (by rw [show k + 2 * (d - 1) + 1 = m by omega]; exact hy) ⟨hes, hs⟩
        · intro m hm y z hy hz ⟨_, h6⟩
          exact h3 z hz h6
      · rename_i hu
        simp only [Bool.not_eq_true] at hu
        obtain ⟨hbu, hun⟩ := xorRun_used hr hu
        refine ⟨k, hkl, x, hxk, hxx, ?_⟩
        rintro m ⟨d', hd', h5 | h5⟩ hg
        · obtain ⟨h5, h6⟩ := h5
          by_cases hd1 : d' = 1
          · subst hd1
            obtain rfl : m = k - 1 := by omega
            obtain ⟨y, hy, hyu⟩ := hg
            rw [hb] at hy
            cases hy
            rw [hbu] at hyu
            cases hyu
          · obtain ⟨e, he, hes⟩ := h6 (d' - 2) (by omega)
            exact hp2 (m + 2 * (d' - 2) + 1) (by omega) e x he hxk ⟨hes, hxx⟩
        · obtain ⟨h5, h6⟩ := h5
          have hdd : d' ≤ d := by
            rcases Nat.lt_or_ge d d' with h | h
            · exfalso
              obtain ⟨e, he, hes⟩ := h6 d h
              exact h3 e (by rw [show r.1 + 1 = k + 2 * d by omega]; exact he) hes
            · exact h
          refine hun (d' - 1) (by omega) ?_
          rw [show k + 2 * (d' - 1) + 1 = m by omega]
          exact hg

theorem Spec.OneOf.core {a b : List AEntry} (h : coresOf a = coresOf b) {k j : Nat} (ho : Spec.OneOf a k j) : Spec.OneOf b k j := by
  have tr : ∀ (i : Nat), (∃ e, a[i]? = some e ∧ e.short = 251) → ∃ e, b[i]? = some e ∧ e.short = 251 := by
    rintro i ⟨e, he, hs⟩
    obtain ⟨y, hy, hc⟩ := get_core h he
    have h1 := congrArg AEntry.short hc
    have h1 : e.short = y.short := h1
    exact ⟨y, hy, h1.symm.trans hs⟩
  obtain ⟨d, hd, hcase⟩ := ho
  refine ⟨d, hd, ?_⟩
  rcases hcase with ⟨h1, h2⟩ | ⟨h1, h2⟩
  · exact .inl ⟨h1, fun t ht => tr _ (h2 t ht)⟩
  · exact .inr ⟨h1, fun t ht => tr _ (h2 t ht)⟩

/-- What has been told when all words have been read, and whether it is accepted. -/
theorem told_accept {cfg : ACfg} (hcl : cfg.closeEnable = true) (hlt : cfg.lastToggle = false) {fuel : Nat}
    {g g0 : List AEntry} (hpre : preprocess g = ok (some g0)) (hg : Spec.Typed g) {argv0 : List UInt8} (henv : envArgs cfg argv0 = [])
    {as : List Spec.Item} {ws : List (List UInt8)} (hline : Spec.Written g as ws) (more : Option (List (List UInt8)))
    {stdin : List UInt8} {fds : Nat} {r : AResult}
    (h : argvProcess cfg fuel g (argv0 :: ws ++ (match more with | none => [] | some ts => ascii "--" :: ts)) stdin fds = ok r) :
    ∃ (s : AState) (m x : Bool), Told cfg g (Spec.gifts g (as ++ (more.getD []).map Spec.Item.plain) []) s ∧ s.grid = r.grid ∧
      (s.okay = true ↔ Spec.Allowed cfg g (as ++ (more.getD []).map Spec.Item.plain) []) ∧
      checkMand s.grid = ok m ∧ checkXor s.grid (s.grid.length + 1) 0 = ok x ∧
      r.noError = (s.okay && m && x) := by
  have hl := (preprocess_core hpre).2.1
  unfold argvProcess at h
  rw [List.cons_append] at h
  dsimp only at h
  rw [hpre, ok_bind, henv] at h
  dsimp only at h
  unfold processLists at h
  dsimp only at h
  have e0 : ∀ b : Bool, (if b then ([] : List (List UInt8)) else []) = [] := by intro b; cases b <;> rfl
  have d0 : ∀ fk s, doList cfg fk [] false s = ok (s, []) := by intro fk s; rw [doList]
  rw [e0, e0] at h
  simp only [d0, ok_bind] at h
  rw [bind_eq_ok] at h
  obtain ⟨r2, h2, h⟩ := h
  rw [bind_eq_ok] at h
  obtain ⟨m, hm, h⟩ := h
  rw [bind_eq_ok] at h
  obtain ⟨x, hx, h⟩ := h
  cases h
  obtain ⟨ws0, hline, htog⟩ := hline
  obtain ⟨r2', h2', e2⟩ := together_effect hl htog (preprocess_core hpre).1 h2
  obtain ⟨s', r', H, hok, h3, e3⟩ := Told.lineOkay hcl hl hg hline (by simp) (told_start hpre _ _ _) h2'
  have e3 := e3.trans e2
  have fin : ∀ gs, Told cfg g gs r2.1 → (r2.1.okay && m && !(decide (r2.1.queue.length > r2.1.tail)) && x) = (r2.1.okay && m && x) := by
    intro gs HT
    have := HT.free
    rw [show decide (r2.1.queue.length > r2.1.tail) = false by simp [this]]
    simp
  cases more with
  | none =>
    dsimp only at h3
    rw [d0] at h3
    cases h3
    have e3 : s' = r2.1 := e3
    subst e3
    refine ⟨r2.1, m, x, by simpa using H, rfl, by simpa using hok, hm, hx, fin _ H⟩
  | some ts =>
    dsimp only at h3
    rw [doList, if_neg (by simp), if_pos (by simp), bind_eq_ok] at h3
    obtain ⟨r4, h4, h3⟩ := h3
    cases h3
    have e3 : r4.1 = r2.1 := e3
    have HR := Told.rest hlt hl hg ts H h4
    have hk := Told.restOkay hlt hl hg ts H h4
    rw [e3] at HR hk
    have HR' : Told cfg g (Spec.gifts g (as ++ ((some ts).getD []).map Spec.Item.plain) []) r2.1 := by
      rw [gifts_append]
      simpa using HR
    refine ⟨r2.1, m, x, HR', rfl, ?_, hm, hx, fin _ HR⟩
    rw [hk, hok, allowed_append]
    simp

/-- **C113.** Exactly these command lines are accepted: every option and every argument by position is allowed where it
stands, every mandatory entry is given, and of every group of which one is required one is given.  Here `given` are the
entries meant by the line. -/
theorem C113_accepted {cfg : ACfg} (hcl : cfg.closeEnable = true) (hlt : cfg.lastToggle = false) {fuel : Nat}
    {g g0 : List AEntry} (hpre : preprocess g = ok (some g0)) (hg : Spec.Typed g) {argv0 : List UInt8} (henv : envArgs cfg argv0 = [])
    {as : List Spec.Item} {ws : List (List UInt8)} (hline : Spec.Written g as ws) (more : Option (List (List UInt8)))
    {stdin : List UInt8} {fds : Nat} {r : AResult}
    (h : argvProcess cfg fuel g (argv0 :: ws ++ (match more with | none => [] | some ts => ascii "--" :: ts)) stdin fds = ok r)
    {items : List Spec.Item} (hitems : items = as ++ (more.getD []).map Spec.Item.plain)
    {given : List Nat} (hgiven : given = (Spec.gifts g items []).map Prod.fst) :
    r.noError = true ↔
      Spec.Allowed cfg g items [] ∧
      (∀ i < lastIdx g, ∀ e, g[i]? = some e → (e.short = 254 ∨ e.mand = true) → i ∈ given) ∧
      (∀ k < lastIdx g, ∀ e, g[k]? = some e → e.short = 251 → ∃ j, Spec.OneOf g k j ∧ j ∈ given) := by
  subst hitems hgiven
  have hl := (preprocess_core hpre).2.1
  obtain ⟨s, m, x, H, hs, hok, hm, hx, hr⟩ := told_accept hcl hlt hpre hg henv hline more h
  have hc := H.core
  have hlast : lastIdx s.grid = lastIdx g := lastIdx_core hc
  have hlen : s.grid.length = g.length := by simpa [coresOf] using congrArg List.length hc
  have hadj := NoAdjacent.core hc (preprocess_adj hpre)
  have hxin := XorInside.core hc (preprocess_xor hpre)
  have hmand := checkMand_iff hm
  rw [hlast] at hmand
  have hA : m = true ↔ ∀ i < lastIdx g, ∀ e, g[i]? = some e → (e.short = 254 ∨ e.mand = true) →
      i ∈ (Spec.gifts g (as ++ (more.getD []).map Spec.Item.plain) []).map Prod.fst := by
    rw [hmand]
    constructor
    · intro hall i hi e he hme
      obtain ⟨y, hy, hcy⟩ := get_core hc.symm he
      have h1 := congrArg AEntry.short hcy
      have h1 : e.short = y.short := h1
      have h2 := congrArg AEntry.mand hcy
      have h2 : e.mand = y.mand := h2
      rw [h1, h2] at hme
      exact (H.given hl hi).mp ⟨y, hy, hall i hi y hy hme⟩
    · intro hall i hi e he hme
      obtain ⟨y, hy, hcy⟩ := get_core hc he
      have h1 := congrArg AEntry.short hcy
      have h1 : e.short = y.short := h1
      have h2 := congrArg AEntry.mand hcy
      have h2 : e.mand = y.mand := h2
      rw [h1, h2] at hme
      obtain ⟨z, hz, hu⟩ := (H.given hl hi).mpr (hall i hi y hy hme)
      rw [he] at hz
      cases hz
      exact hu
  have inside : ∀ k < lastIdx g, ∀ e, g[k]? = some e → e.short = 251 → ∀ j, Spec.OneOf g k j → j < lastIdx g := by
    intro k hk e he hes j hj
    have hxg := preprocess_xor hpre
    obtain ⟨d, hd, ⟨h1, h2⟩ | ⟨h1, h2⟩⟩ := hj
    · omega
    · have : ∀ t < d, k + 2 * t + 1 < lastIdx g := by
        intro t
        induction t with
        | zero => intro _; exact (hxg k hk e he hes).2
        | succ t ih =>
          intro ht
          have := ih (by omega)
          obtain ⟨e', he', hs'⟩ := h2 (t + 1) ht
          have hlt' : k + 2 * (t + 1) < lastIdx g := by
            rcases Nat.lt_or_eq_of_le (show k + 2 * (t + 1) ≤ lastIdx g by omega) with h | h
            · exact h
            · exfalso
              have hat := at_last (g := g) (by omega)
              have h' := List.getElem?_eq_getElem (l := g) (i := lastIdx g) (by omega)
              rw [h, h'] at he'
              cases he'
              rw [hat] at hs'
              cases hs'
          exact (hxg _ hlt' e' he' hs').2
      have := this (d - 1) (by omega)
      omega
  have hX : x = true ↔ ∀ k < lastIdx g, ∀ e, g[k]? = some e → e.short = 251 → ∃ j, Spec.OneOf g k j ∧
      j ∈ (Spec.gifts g (as ++ (more.getD []).map Spec.Item.plain) []).map Prod.fst := by
    constructor
    · rintro rfl k hk e he hes
      obtain ⟨y, hy, hcy⟩ := get_core hc.symm he
      have h1 := congrArg AEntry.short hcy
      have h1 : e.short = y.short := h1
      obtain ⟨j, hj, hgj⟩ := checkXor_true hadj hx k (by omega) (by omega) y hy (by rw [← h1]; exact hes)
      have hj := hj.core hc
      exact ⟨j, hj, (H.given hl (inside k hk e he hes j hj)).mp hgj⟩
    · intro hall
      cases x with
      | true => rfl
      | false =>
        exfalso
        obtain ⟨k, hk, e, he, hes, hno⟩ := checkXor_false hadj hxin hx (by omega) (by omega) (by omega)
        rw [hlast] at hk
        obtain ⟨y, hy, hcy⟩ := get_core hc he
        have h1 := congrArg AEntry.short hcy
        have h1 : e.short = y.short := h1
        obtain ⟨j, hj, hgj⟩ := hall k hk y hy (by rw [← h1]; exact hes)
        exact hno j (hj.core hc.symm) ((H.given hl (inside k hk y hy (by rw [← h1]; exact hes) j hj)).mpr hgj)
  rw [hr, Bool.and_eq_true, Bool.and_eq_true, hok, hA, hX, and_assoc]

/-! ### Words that are rejected -/

/-- The long options that there are without an entry. -/
def Spec.ownNames : List (List UInt8) :=
  [ascii "argv-file", ascii "usage", ascii "help", ascii "usage-short", ascii "usage-long", ascii "usage-all", ascii "version",
   ascii "argv-display"]

/-- The word (`x` is empty or begins with `=`) calls no option: no entry has this character, or this long name, or several
have it. -/
inductive Spec.Wrong (g : List AEntry) : List UInt8 → Prop
  | short (c : UInt8) (hc : c ≠ 45 ∧ c ≠ 61 ∧ c ≠ 63) (h : ∀ j < lastIdx g, ∀ e, g[j]? = some e → e.short ≠ c)
      (x : List UInt8) (hx : x = [] ∨ ∃ t, x = 61 :: t) : Spec.Wrong g (45 :: c :: x)
  | unknown (w : List UInt8) (hw : w ≠ []) (heq : (61 : UInt8) ∉ w)
      (h : ∀ j < lastIdx g, ∀ e l, g[j]? = some e → e.long = some l → ¬ w <+: l) (ho : ∀ o ∈ Spec.ownNames, ¬ w <+: o)
      (x : List UInt8) (hx : x = [] ∨ ∃ t, x = 61 :: t) : Spec.Wrong g (45 :: 45 :: w ++ x)
  | ambiguous (w : List UInt8) (hw : w ≠ []) (heq : (61 : UInt8) ∉ w) (i j : Nat) (hij : i < j) (hj : j < lastIdx g)
      (e e' : AEntry) (l l' : List UInt8) (he : g[i]? = some e) (he' : g[j]? = some e') (hl : e.long = some l)
      (hl' : e'.long = some l') (hp : w <+: l) (hp' : w <+: l')
      (x : List UInt8) (hx : x = [] ∨ ∃ t, x = 61 :: t) : Spec.Wrong g (45 :: 45 :: w ++ x)

theorem longLoop_again {rest : List UInt8} : ∀ {g : List AEntry} (k m j : Nat), lastIdx g < g.length → j < lastIdx g →
    (∃ e, g[j]? = some e ∧ longMatches rest e = true) → longLoop rest g k (some m) = ok .two
  | [], _, _, _, h, _, _ => by simp at h
  | e :: es, k, m, j, h, hj, hn => by
    rw [longLoop]
    rw [lastIdx_cons] at h hj
    by_cases he : e.short = argvLast
    · rw [if_pos he] at hj; omega
    · rw [if_neg he]
      rw [if_neg he] at h hj
      split
      · rfl
      · rename_i hm
        cases j with
        | zero =>
          obtain ⟨x, hx, hxm⟩ := hn
          cases Option.some.inj hx
          exact absurd hxm hm
        | succ j =>
          obtain ⟨x, hx, hxm⟩ := hn
          exact longLoop_again (k + 1) m j (by simpa using h) (by omega) ⟨x, by simpa using hx, hxm⟩

theorem longLoop_two {rest : List UInt8} : ∀ {g : List AEntry} (k i j : Nat), lastIdx g < g.length → i < j → j < lastIdx g →
    (∃ e, g[i]? = some e ∧ longMatches rest e = true) → (∃ e, g[j]? = some e ∧ longMatches rest e = true) →
    longLoop rest g k none = ok .two
  | [], _, _, _, h, _, _, _, _ => by simp at h
  | e :: es, k, i, j, h, hij, hj, hi', hj' => by
    rw [longLoop]
    rw [lastIdx_cons] at h hj
    by_cases he : e.short = argvLast
    · rw [if_pos he] at hj; omega
    · rw [if_neg he]
      rw [if_neg he] at h hj
      obtain ⟨j, rfl⟩ : ∃ j', j = j' + 1 := ⟨j - 1, by omega⟩
      obtain ⟨y, hy, hym⟩ := hj'
      split
      · exact longLoop_again (k + 1) k j (by simpa using h) (by omega) ⟨y, by simpa using hy, hym⟩
      · rename_i hm
        obtain ⟨x, hx, hxm⟩ := hi'
        cases i with
        | zero =>
          cases Option.some.inj hx
          exact absurd hxm hm
        | succ i =>
          exact longLoop_two (k + 1) i j (by simpa using h) (by omega) (by omega) ⟨x, by simpa using hx, hxm⟩
            ⟨y, by simpa using hy, hym⟩

/-- A rejected command line stays rejected. -/
theorem bad_inv (cfg : ACfg) : AInv cfg (fun s => s.okay = false) where
  bad := fun _ _ => rfl
  arg := by
    intro i close s s' hs h
    unfold doArg at h
    rw [bind_eq_ok] at h
    obtain ⟨e, he, h⟩ := h
    dsimp only at h
    rw [bind_eq_ok] at h
    obtain ⟨c, hc, h⟩ := h
    split at h
    · rw [bind_eq_ok] at h
      obtain ⟨r, _, h⟩ := h
      cases h
      simp [hs]
    · split at h
      · cases h
        simp [hs]
      · cases h
  value := by intro i e v s b hs _ _; simp [hs]
  pos := by intro i e v s b hs _ _; simp [hs]
  push := fun _ hs _ => hs
  pop := fun _ hs _ => hs
  stdin := fun _ _ hs => hs
  files := fun _ _ _ hs => hs

theorem doList_wrong {cfg : ACfg} (hcl : cfg.closeEnable = true) {fileK : List UInt8 → AState → Outcome AState} {g : List AEntry}
    {W : List UInt8} (h : Spec.Wrong g W) {rest : List (List UInt8)} {s : AState} (hl : lastIdx g < g.length)
    (hc : coresOf s.grid = coresOf g) (hq : s.queue.length = s.tail) :
    doList cfg fileK (W :: rest) false s = doList cfg fileK rest false { s with okay := false } >>= fun r =>
      ok (r.1, punch cfg W :: r.2) := by
  have e2 : ascii "--" = [45, 45] := by decide
  have e1 : ascii "-" = [45] := by decide
  have hlen := congrArg List.length hc
  simp [coresOf] at hlen
  have hl' : lastIdx s.grid < s.grid.length := by rw [lastIdx_core hc]; omega
  have pun : ∀ {w x : List UInt8}, (61 : UInt8) ∉ w → (x = [] ∨ ∃ t, x = 61 :: t) → punch cfg (w ++ x) = w := by
    intro w x hw hx
    rcases hx with rfl | ⟨t, rfl⟩
    · rw [List.append_nil]; exact (punch_none cfg hw).1
    · exact (punch_close hcl hw t).1
  have longs : ∀ {w : List UInt8} {j : Nat} {y : AEntry}, g[j]? = some y → ∃ x, s.grid[j]? = some x ∧ longMatches w x = longMatches w y := by
    intro w j y hy
    obtain ⟨x, hx, hcx⟩ := get_core hc.symm hy
    have := congrArg AEntry.long hcx
    have hxy : y.long = x.long := this
    exact ⟨x, hx, by unfold longMatches; rw [hxy]⟩
  cases h with
  | short c hc' h x hx =>
    have hne : c ≠ 45 := hc'.1
    rw [doList, if_neg (by simp), if_neg (by rw [e2]; simp [hne]), if_neg (by rw [e2]; simp [hne]),
      if_pos (by rw [e1]; simp)]
    have hp : punch cfg (45 :: c :: x) = [45, c] := pun (w := [45, c]) (by simp; exact fun h => hc'.2.1 h.symm) hx
    unfold doShort
    dsimp only
    rw [hp, if_neg (by simp)]
    show (clusterLoop cfg [45, c] _ [c] true s >>= _) = _
    rw [clusterLoop, scanGrid_absent 0 hl', ok_bind]
    · dsimp only
      rw [if_neg hc'.2.2, if_neg (by rw [hq]; simp), clusterLoop, ok_bind]
    · intro j hj y hy
      rw [lastIdx_core hc] at hj
      obtain ⟨z, hz, hcz⟩ := get_core hc hy
      have h1 := congrArg AEntry.short hcz
      have h1 : y.short = z.short := h1
      rw [h1]
      simpa using h j hj z hz
  | unknown w hw heq h ho x hx =>
    have hp : punch cfg (45 :: 45 :: w ++ x) = 45 :: 45 :: w := pun (w := 45 :: 45 :: w) (by simpa using heq) hx
    rw [doList, if_neg (by simp), if_neg (by rw [e2]; simp [hw]), if_pos (by rw [e2]; simp)]
    unfold doLong
    dsimp only
    rw [hp, if_neg (by simpa using hw)]
    show (longLoop w s.grid 0 none >>= _) >>= _ = _
    rw [longLoop_none 0 none hl', ok_bind]
    · dsimp only
      have own : ∀ o ∈ Spec.ownNames, w.isPrefixOf o = false := by
        intro o hoo
        rw [← Bool.not_eq_true]
        simpa using ho o hoo
      rw [List.drop_succ_cons, List.drop_succ_cons, List.drop_zero]
      rw [if_neg (by rw [own _ (by simp [Spec.ownNames])]; simp), if_neg]
      · rw [ok_bind]
      · rw [own (ascii "usage") (by simp [Spec.ownNames]), own (ascii "help") (by simp [Spec.ownNames]),
          own (ascii "usage-short") (by simp [Spec.ownNames]), own (ascii "usage-long") (by simp [Spec.ownNames]),
          own (ascii "usage-all") (by simp [Spec.ownNames]), own (ascii "version") (by simp [Spec.ownNames]),
          own (ascii "argv-display") (by simp [Spec.ownNames])]
        simp
    · intro j hj y hy
      rw [lastIdx_core hc] at hj
      obtain ⟨z, hz, hcz⟩ := get_core hc hy
      have h1 := congrArg AEntry.long hcz
      have h1 : y.long = z.long := h1
      unfold longMatches
      rw [h1]
      cases hzl : z.long with
      | none => rfl
      | some l =>
        have := h j hj z l hz hzl
        rw [← Bool.not_eq_true]
        simpa using this
  | ambiguous w hw heq i j hij hj e e' l l' he he' hel hel' hpl hpl' x hx =>
    have hp : punch cfg (45 :: 45 :: w ++ x) = 45 :: 45 :: w := pun (w := 45 :: 45 :: w) (by simpa using heq) hx
    rw [doList, if_neg (by simp), if_neg (by rw [e2]; simp [hw]), if_pos (by rw [e2]; simp)]
    unfold doLong
    dsimp only
    rw [hp, if_neg (by simpa using hw)]
    show (longLoop w s.grid 0 none >>= _) >>= _ = _
    rw [longLoop_two 0 i j hl' hij (by rw [lastIdx_core hc]; exact hj), ok_bind]
    · dsimp only
      rw [ok_bind]
    · obtain ⟨y, hy, hm⟩ := longs (w := w) he
      exact ⟨y, hy, by rw [hm]; unfold longMatches; rw [hel]; simpa using hpl⟩
    · obtain ⟨y, hy, hm⟩ := longs (w := w) he'
      exact ⟨y, hy, by rw [hm]; unfold longMatches; rw [hel']; simpa using hpl'⟩

/-- **C113.** A command line that calls an option that there is not, or one that is ambiguous, is rejected, whatever stands
in front of it and behind it. -/
theorem C113_wrong {cfg : ACfg} (hcl : cfg.closeEnable = true) {fuel : Nat}
    {g : List AEntry} (hg : Spec.Typed g) {argv0 : List UInt8} (henv : envArgs cfg argv0 = [])
    {as : List Spec.Item} {ws : List (List UInt8)} (hline : Spec.Written g as ws) {w : List UInt8} (hw : Spec.Wrong g w)
    {rest : List (List UInt8)} {stdin : List UInt8} {fds : Nat} {r : AResult}
    (h : argvProcess cfg fuel g (argv0 :: (ws ++ w :: rest)) stdin fds = ok r) : r.noError = false := by
  cases hne : r.noError with
  | false => rfl
  | true =>
  exfalso
  obtain ⟨g0, hpre⟩ := preprocess_some h hne
  have hl := (preprocess_core hpre).2.1
  unfold argvProcess at h
  dsimp only at h
  rw [hpre, ok_bind, henv] at h
  dsimp only at h
  unfold processLists at h
  dsimp only at h
  have e0 : ∀ b : Bool, (if b then ([] : List (List UInt8)) else []) = [] := by intro b; cases b <;> rfl
  have d0 : ∀ fk s, doList cfg fk [] false s = ok (s, []) := by intro fk s; rw [doList]
  rw [e0, e0] at h
  simp only [d0, ok_bind] at h
  rw [bind_eq_ok] at h
  obtain ⟨r2, h2, h⟩ := h
  rw [bind_eq_ok] at h
  obtain ⟨m, hm, h⟩ := h
  rw [bind_eq_ok] at h
  obtain ⟨x, hx, h⟩ := h
  cases h
  obtain ⟨ws0, hline, htog⟩ := hline
  obtain ⟨r2', h2', e2⟩ := together_effect hl htog (preprocess_core hpre).1 h2
  obtain ⟨s', r', H, h3, e3⟩ := Told.line hcl hl hg hline (told_start hpre _ _ _) h2'
  have e3 := e3.trans e2
  rw [doList_wrong hcl hw hl H.core H.free, bind_eq_ok] at h3
  obtain ⟨r4, h4, h3⟩ := h3
  cases h3
  have := doList_inv (bad_inv cfg).toAInv0 (fileArgs_inv (bad_inv cfg) fuel) _ _ _ r4 rfl h4
  have e3 : r4.1 = r2.1 := e3
  rw [e3] at this
  rw [this] at hne
  simp at hne

/-- **C113.** A command line that ends with an option whose value is missing is rejected. -/
theorem C113_missing {cfg : ACfg} (hcl : cfg.closeEnable = true) {fuel : Nat}
    {g : List AEntry} (hg : Spec.Typed g) {argv0 : List UInt8} (henv : envArgs cfg argv0 = [])
    {as : List Spec.Item} {ws : List (List UInt8)} (hline : Spec.Written g as ws) {w : List UInt8} {i : Nat} (hw : Spec.Names g i w)
    (ha : ∀ e, g[i]? = some e → hasArg e.ty = true) {stdin : List UInt8} {fds : Nat} {r : AResult}
    (h : argvProcess cfg fuel g (argv0 :: (ws ++ [w])) stdin fds = ok r) : r.noError = false := by
  cases hne : r.noError with
  | false => rfl
  | true =>
  exfalso
  obtain ⟨g0, hpre⟩ := preprocess_some h hne
  have hl := (preprocess_core hpre).2.1
  unfold argvProcess at h
  dsimp only at h
  rw [hpre, ok_bind, henv] at h
  dsimp only at h
  unfold processLists at h
  dsimp only at h
  have e0 : ∀ b : Bool, (if b then ([] : List (List UInt8)) else []) = [] := by intro b; cases b <;> rfl
  have d0 : ∀ fk s, doList cfg fk [] false s = ok (s, []) := by intro fk s; rw [doList]
  rw [e0, e0] at h
  simp only [d0, ok_bind] at h
  rw [bind_eq_ok] at h
  obtain ⟨r2, h2, h⟩ := h
  rw [bind_eq_ok] at h
  obtain ⟨m, hm, h⟩ := h
  rw [bind_eq_ok] at h
  obtain ⟨x, hx, h⟩ := h
  cases h
  obtain ⟨ws0, hline, htog⟩ := hline
  obtain ⟨r2', h2', e2⟩ := together_effect hl htog (preprocess_core hpre).1 h2
  obtain ⟨s', r', H, h3, e3⟩ := Told.line hcl hl hg hline (told_start hpre _ _ _) h2'
  have e3 := e3.trans e2
  rw [doList_names hw none (punch_none cfg hw.noEq) (List.prefix_rfl) hl H.core, bind_eq_ok] at h3
  obtain ⟨s1, h4, h3⟩ := h3
  rw [d0, ok_bind] at h3
  cases h3
  have e3 : s1 = r2.1 := e3
  have hge := List.getElem?_eq_getElem (l := g) (i := i) (by have := hw.lt; omega)
  obtain ⟨y, hy, hyt⟩ := H.entry hw.lt hge
  unfold doArg at h4
  rw [entryAt_ok.mpr hy, ok_bind] at h4
  dsimp only at h4
  rw [bind_eq_ok] at h4
  obtain ⟨clash, _, h4⟩ := h4
  rw [if_neg (by rw [hyt, ha _ hge]; simp)] at h4
  split at h4
  · cases h4
    rw [← e3] at hne
    simp only [Bool.and_eq_true, Bool.not_eq_true', decide_eq_false_iff_not] at hne
    have := hne.1.2
    have hf := H.free
    simp at this
    omega
  · cases h4

/-- The hypotheses of `C113_accepted` are met by the line of `argvLine`, which is allowed; all conditions have content, for
`-a -b in` is not allowed, `-a` lacks the mandatory argument and `in` the choice between the alternatives. -/
example : (∃ g0, preprocess argvGrid = ok (some g0)) ∧ argvCfg.closeEnable = true ∧ argvCfg.lastToggle = false ∧
    ¬ Spec.Allowed argvCfg argvGrid [.flag 0, .flag 2, .plain (ascii "in")] [] ∧
    Spec.Allowed argvCfg argvGrid [.flag 0, .plain (ascii "in"), .flag 3, .flag 3] [] ∧
    (argvRun argvGrid [ascii "prog", ascii "-a", ascii "in", ascii "-v", ascii "-v"]).noError = true ∧
    (argvRun argvGrid [ascii "prog", ascii "-a"]).noError = false ∧ (argvRun argvGrid [ascii "prog", ascii "in"]).noError = false := by
  have alt : Spec.Alternatives argvGrid 0 2 :=
    ⟨1, by omega, rfl, fun t ht => by obtain rfl : t = 0 := by omega
                                      exact ⟨_, rfl, .inr rfl⟩⟩
  have pre : ∃ g0, preprocess argvGrid = ok (some g0) := by
    have hb : (match preprocess argvGrid with | .ok (some _) => true | _ => false) = true := by decide +kernel
    split at hb
    · rename_i x hx; exact ⟨x, hx⟩
    · cases hb
  have no3 : ∀ j, j = 0 ∨ j = 3 ∨ j = 6 → ¬ Spec.Alternatives argvGrid j 3 ∧ ¬ Spec.Alternatives argvGrid 3 j := by
    intro j hj
    constructor
    · rintro ⟨d, hd, h1, h2⟩
      obtain ⟨e, he, hs⟩ := h2 (d - 1) (by omega)
      rw [show j + 2 * (d - 1) + 1 = 2 by omega] at he
      cases Option.some.inj he
      revert hs; decide
    · rintro ⟨d, hd, h1, h2⟩
      obtain ⟨e, he, hs⟩ := h2 0 (by omega)
      cases Option.some.inj he
      revert hs; decide
  refine ⟨pre, by decide, by decide, ?_, ?_, by decide +kernel, by decide +kernel, by decide +kernel⟩
  · intro h
    rw [Spec.Allowed, Spec.Allowed] at h
    exact (h.2.2.1 0 (by simp)).1 alt
  · refine ⟨by simp, .inr (.inl (by simp)), 6, by decide +kernel, ?_, .inr (.inl (by simp)), ?_, .inr (.inr ⟨_, rfl, .inr rfl⟩), trivial⟩
    · intro j hj
      exact no3 j (by simp at hj; omega)
    · intro j hj
      exact no3 j (by simp at hj; omega)

/-- Words that call no option of the array: `-z`, `--zeta=1`. -/
example : Spec.Wrong argvGrid (ascii "-z") ∧ Spec.Wrong argvGrid (ascii "--zeta=1") ∧ Spec.Wrong prefixGrid (ascii "--out") := by
  have eight : ∀ (P : AEntry → Prop), (∀ e ∈ argvGrid.take 8, P e) → ∀ j < lastIdx argvGrid, ∀ e, argvGrid[j]? = some e → P e := by
    intro P h j hj e he
    have hj : j < 8 := hj
    apply h
    rw [List.mem_iff_getElem?]
    exact ⟨j, by rw [List.getElem?_take_of_lt hj]; exact he⟩
  refine ⟨?_, ?_, ?_⟩
  · refine .short 122 (by decide) (eight _ (by decide)) [] (.inl rfl)
  · refine .unknown (ascii "zeta") (by decide) (by decide) (fun j hj e l he hl => ?_) (by decide) (ascii "=1") (.inr ⟨ascii "1", by decide⟩)
    have := eight (fun e => ∀ l ∈ e.long, ¬ ascii "zeta" <+: l) (by decide) j hj e he
    exact this l hl
  · exact .ambiguous (ascii "out") (by decide) (by decide) 0 1 (by omega) (by decide) _ _ _ _ rfl rfl rfl rfl (by decide) (by decide) [] (.inl rfl)

/-- Options written together, and a negative number: `-avvn -5 in` says `-a`, `-v`, `-v`, `-n` with the value `-5`, and `in`. -/
example : Spec.Written argvGrid [.flag 0, .flag 3, .flag 3, .option 4 (ascii "-5"), .plain (ascii "in")]
      [ascii "-avvn", ascii "-5", ascii "in"] ∧
    (argvRun argvGrid [ascii "prog", ascii "-avvn", ascii "-5", ascii "in"]).noError = true ∧
    ((argvRun argvGrid [ascii "prog", ascii "-avvn", ascii "-5", ascii "in"]).grid.map AEntry.var).take 5 =
      [some (.one (.num 1)), none, some (.one (.num 0)), some (.one (.num 2)), some (.one (.num (-5)))] := by
  have opt : ∀ (k : Nat) (c : UInt8) (e : AEntry), argvGrid[k]? = some e → e.short = c → k < 8 →
      (∀ j < 8, j < k → (argvGrid[j]?.map AEntry.short) ≠ some c) → Spec.OptionAt argvGrid k c := by
    intro k c e he hs hk hj
    refine ⟨hk, ⟨e, he, hs⟩, fun j hjk e' he' hc => hj j (by omega) hjk (by rw [he']; simp [hc])⟩
  have o0 := opt 0 97 _ rfl rfl (by omega) (by decide)
  have o3 := opt 3 118 _ rfl rfl (by omega) (by decide)
  have o4 := opt 4 110 _ rfl rfl (by omega) (by decide)
  refine ⟨⟨[ascii "-a", ascii "-v", ascii "-v", ascii "-n", ascii "-5", ascii "in"], ?_, ?_⟩, by decide +kernel, by decide +kernel⟩
  · refine .cons (w := [ascii "-a"]) (.flag 0 _ (.short 97 o0 (by decide)) ?_) ?_
    · intro e he; cases he; rfl
    refine .cons (w := [ascii "-v"]) (.flag 3 _ (.short 118 o3 (by decide)) ?_) ?_
    · intro e he; cases he; rfl
    refine .cons (w := [ascii "-v"]) (.flag 3 _ (.short 118 o3 (by decide)) ?_) ?_
    · intro e he; cases he; rfl
    refine .cons (w := [ascii "-n", ascii "-5"]) (.number 4 _ 53 [] (.short 110 o4 (by decide)) ?_ (by decide) (by decide) ?_) ?_
    · intro e he; cases he; decide
    · intro j hj e he
      have hj : j < 8 := hj
      have : j = 0 ∨ j = 1 ∨ j = 2 ∨ j = 3 ∨ j = 4 ∨ j = 5 ∨ j = 6 ∨ j = 7 := by omega
      rcases this with rfl | rfl | rfl | rfl | rfl | rfl | rfl | rfl <;> cases Option.some.inj he <;> decide
    refine .cons (w := [ascii "in"]) (.plain _ (by unfold Spec.NotOption; decide)) .nil
  · refine .cluster (ws := [ascii "-5", ascii "in"]) (ascii "avvn") (by decide) ?_ (.apart _ (by decide) (.apart _ (by decide) .nil))
    intro c hc
    have : c = 97 ∨ c = 118 ∨ c = 118 ∨ c = 110 := by simpa [ascii] using hc
    rcases this with rfl | rfl | rfl | rfl
    · exact ⟨⟨0, o0⟩, by decide⟩
    · exact ⟨⟨3, o3⟩, by decide⟩
    · exact ⟨⟨3, o3⟩, by decide⟩
    · exact ⟨⟨4, o4⟩, by decide⟩

end Wdns
