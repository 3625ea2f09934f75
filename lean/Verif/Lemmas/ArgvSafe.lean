import Verif.Props.ArgvChecks

/-!
# Lemmas: the command-line model stays inside the array
-/

namespace Wdns
open Outcome

/-- The array has an end, and the entry behind it can be read. -/
def SpareEntry (g : List AEntry) : Prop := lastIdx g + 1 < g.length

theorem SpareEntry.core {g g' : List AEntry} (h : coresOf g' = coresOf g) (hg : SpareEntry g) : SpareEntry g' := by
  unfold SpareEntry at *
  rw [lastIdx_core h]
  have := congrArg List.length h
  simp [coresOf] at this
  omega

theorem entryAt_lt {g : List AEntry} {i : Nat} (h : i < g.length) : entryAt g i = ok g[i] := by
  rw [entryAt_ok]; exact List.getElem?_eq_getElem h

theorem before_last {g : List AEntry} {i : Nat} (h : i < lastIdx g) (hl : i < g.length) : g[i].short ≠ argvLast := by
  have := List.not_of_lt_findIdx (p := fun e : AEntry => decide (e.short = argvLast)) (xs := g) h
  simpa using this

theorem at_last {g : List AEntry} (h : lastIdx g < g.length) : g[lastIdx g].short = argvLast := by
  have := List.findIdx_getElem (p := fun e : AEntry => decide (e.short = argvLast)) (xs := g) (w := h)
  exact of_decide_eq_true this

theorem lastIdx_cons (e : AEntry) (es : List AEntry) :
    lastIdx (e :: es) = if e.short = argvLast then 0 else lastIdx es + 1 := by
  unfold lastIdx
  rw [List.findIdx_cons]
  by_cases h : e.short = argvLast <;> simp [h]

theorem scanGrid_total {p : AEntry → Bool} : ∀ {g : List AEntry} (i : Nat), lastIdx g < g.length →
    (∃ k e, scanGrid p g i = ok (some (i + k)) ∧ k < lastIdx g ∧ g[k]? = some e ∧ p e ∧ ∀ j < k, ∀ x, g[j]? = some x → p x = false) ∨
    (scanGrid p g i = ok none ∧ ∀ j < lastIdx g, ∀ x, g[j]? = some x → p x = false)
  | [], i, h => by simp at h
  | e :: es, i, h => by
    rw [scanGrid]
    rw [lastIdx_cons] at h ⊢
    by_cases hl : e.short = argvLast
    · rw [if_pos hl, if_pos hl]; exact .inr ⟨rfl, fun j hj => by omega⟩
    · rw [if_neg hl] at h ⊢
      rw [if_neg hl]
      by_cases hp : p e = true
      · rw [if_pos hp]
        exact .inl ⟨0, e, rfl, by omega, rfl, hp, fun j hj => by omega⟩
      · rw [if_neg hp]
        rcases scanGrid_total (p := p) (g := es) (i + 1) (by simp at h; omega) with ⟨k, x, h1, h2, h3, h4, h5⟩ | ⟨h1, h2⟩
        · refine .inl ⟨k + 1, x, by rw [h1, show i + 1 + k = i + (k + 1) by omega], by omega, by simpa using h3, h4, ?_⟩
          intro j hj y hy
          cases j with
          | zero => simp at hy; subst hy; simpa using hp
          | succ j => exact h5 j (by omega) y (by simpa using hy)
        · refine .inr ⟨h1, ?_⟩
          intro j hj y hy
          cases j with
          | zero => simp at hy; subst hy; simpa using hp
          | succ j => exact h2 j (by omega) y (by simpa using hy)

theorem longLoop_total {rest : List UInt8} : ∀ {g : List AEntry} (i : Nat) (m : Option Nat), lastIdx g < g.length →
    longLoop rest g i m = ok .two ∨ (∃ k, longLoop rest g i m = ok (.found k) ∧ (m = some k ∨ (i ≤ k ∧ k < i + lastIdx g))) ∨
      longLoop rest g i m = ok .no
  | [], i, m, h => by simp at h
  | e :: es, i, m, h => by
    rw [longLoop.eq_def]
    dsimp only
    rw [lastIdx_cons] at h ⊢
    by_cases hl : e.short = argvLast
    · rw [if_pos hl]
      cases m with
      | none => exact .inr (.inr rfl)
      | some k => exact .inr (.inl ⟨k, rfl, .inl rfl⟩)
    · rw [if_neg hl] at h ⊢
      rw [if_neg hl]
      have hlen : lastIdx es < es.length := by simp at h; omega
      split
      · cases m with
        | some k => exact .inl rfl
        | none =>
          dsimp only
          rcases longLoop_total (rest := rest) (i + 1) (some i) hlen with h1 | ⟨k, h1, h2⟩ | h1
          · exact .inl h1
          · refine .inr (.inl ⟨k, h1, ?_⟩)
            rcases h2 with h2 | h2
            · cases h2; exact .inr ⟨by omega, by omega⟩
            · exact .inr ⟨by omega, by omega⟩
          · exact .inr (.inr h1)
      · rcases longLoop_total (rest := rest) (i + 1) m hlen with h1 | ⟨k, h1, h2⟩ | h1
        · exact .inl h1
        · refine .inr (.inl ⟨k, h1, ?_⟩)
          rcases h2 with h2 | h2
          · exact .inl h2
          · exact .inr ⟨by omega, by omega⟩
        · exact .inr (.inr h1)

theorem orBelow_total {g : List AEntry} : ∀ (j : Nat), j ≤ g.length → ∃ b, orBelow g j = ok b
  | 0, _ => ⟨false, rfl⟩
  | 1, _ => ⟨false, rfl⟩
  | k + 2, h => by
    rw [orBelow, entryAt_lt (by omega), ok_bind]
    split
    · exact ⟨false, rfl⟩
    · rw [entryAt_lt (by omega), ok_bind]
      split
      · exact ⟨true, rfl⟩
      · exact orBelow_total k (by omega)

theorem orAbove_total {g : List AEntry} (hg : SpareEntry g) : ∀ (fuel j : Nat), 1 ≤ j → j ≤ lastIdx g + 1 → lastIdx g + 1 < fuel + j →
    ∃ b, orAbove g fuel j = ok b
  | 0, j, h1, h2, h3 => by omega
  | fuel + 1, j, h1, h2, h3 => by
    unfold SpareEntry at hg
    rw [orAbove, entryAt_lt (by omega), ok_bind]
    split
    · exact ⟨false, rfl⟩
    · rename_i hj
      rw [entryAt_lt (by omega), ok_bind]
      split
      · exact ⟨false, rfl⟩
      · rename_i hj1
        split
        · exact ⟨false, rfl⟩
        · split
          · exact ⟨true, rfl⟩
          · refine orAbove_total hg fuel (j + 2) (by omega) ?_ (by omega)
            have e1 : j ≠ lastIdx g := by
              intro he; subst he; exact hj (at_last (by omega))
            have e2 : j ≠ lastIdx g + 1 := by
              intro he; subst he; exact hj1 (at_last (by omega))
            omega

theorem checkOr_total {g : List AEntry} (hg : SpareEntry g) {i : Nat} (hi : i < lastIdx g) : ∃ b, checkOr g i = ok b := by
  unfold checkOr
  have hs := hg
  unfold SpareEntry at hs
  obtain ⟨b, hb⟩ := orBelow_total (g := g) i (by omega)
  rw [hb, ok_bind]
  split
  · exact ⟨true, rfl⟩
  · exact orAbove_total hg _ _ (by omega) (by omega) (by omega)

theorem checkMand_total : ∀ {g : List AEntry}, lastIdx g < g.length → ∃ b, checkMand g = ok b
  | [], h => by simp at h
  | e :: es, h => by
    rw [checkMand]
    rw [lastIdx_cons] at h
    split
    · exact ⟨true, rfl⟩
    · rename_i hl
      rw [if_neg hl] at h
      obtain ⟨b, hb⟩ := checkMand_total (g := es) (by simp at h; omega)
      rw [hb, ok_bind]
      exact ⟨_, rfl⟩

/-- Where `ARGV_XOR` may stand. -/
def XorInside (g : List AEntry) : Prop := ∀ k < lastIdx g, ∀ e, g[k]? = some e → e.short = argvXor → 1 ≤ k ∧ k + 1 < lastIdx g

theorem xorRun_total {g : List AEntry} (hg : lastIdx g < g.length) (hx : XorInside g) : ∀ (fuel k : Nat) (u : Bool),
    k + 1 < lastIdx g → lastIdx g < fuel + k → ∃ r : Nat × Bool, xorRun g fuel k u = ok r ∧ k < r.1 ∧ r.1 < lastIdx g
  | 0, k, u, h1, h2 => by omega
  | fuel + 1, k, u, h1, h2 => by
    rw [xorRun, entryAt_lt (by omega), ok_bind, entryAt_lt (by omega), ok_bind]
    split
    · rename_i h
      have hne : k + 2 ≠ lastIdx g := by
        intro he
        have := at_last hg
        simp only [he, this] at h
        cases h
      obtain ⟨r, hr, h3, h4⟩ := xorRun_total hg hx fuel (k + 2) (u || g[k + 1].used)
        (hx (k + 2) (by omega) _ (List.getElem?_eq_getElem (by omega)) h).2 (by omega)
      exact ⟨r, hr, by omega, h4⟩
    · exact ⟨_, rfl, by dsimp only; omega, by dsimp only; omega⟩

theorem checkXor_total {g : List AEntry} (hg : lastIdx g < g.length) (hx : XorInside g) : ∀ (fuel k : Nat), k ≤ lastIdx g →
    lastIdx g < fuel + k → ∃ b, checkXor g fuel k = ok b
  | 0, k, h1, h2 => by omega
  | fuel + 1, k, h1, h2 => by
    rw [checkXor, entryAt_lt (by omega), ok_bind]
    split
    · exact ⟨true, rfl⟩
    · rename_i hl
      have hne : k ≠ lastIdx g := by intro he; subst he; exact hl (at_last hg)
      split
      · exact checkXor_total hg hx fuel (k + 1) (by omega) (by omega)
      · rename_i hxor
        obtain ⟨h3, h4⟩ := hx k (by omega) _ (List.getElem?_eq_getElem (by omega)) (by simpa using hxor)
        rw [if_neg (by omega), entryAt_lt (by omega), ok_bind]
        obtain ⟨r, hr, h5, h6⟩ := xorRun_total hg hx (g.length + 1) k g[k - 1].used h4 (by omega)
        rw [hr, ok_bind]
        split
        · exact checkXor_total hg hx fuel (r.1 + 1) (by omega) (by omega)
        · exact ⟨false, rfl⟩

theorem preLoop_xor {n : Nat} : ∀ {g g' : List AEntry} {i : Nat} {prev : Option AEntry} {b1 b2 : Bool},
    preLoop n g i prev b1 b2 = ok (some g') → ∀ k a, g[k]? = some a → a.short = argvXor → 1 ≤ i + k ∧ i + k + 1 < n
  | [], g', _, _, _, _, h => by simp
  | e :: es, g', i, prev, b1, b2, h => by
    rw [preLoop] at h
    split at h
    · cases h
    split at h
    · cases h
    split at h
    · cases h
    split at h
    · cases h
    split at h
    · cases h
    split at h
    · cases h
    rename_i hpos
    split at h
    · cases h
    rw [bind_eq_ok] at h
    obtain ⟨r, h1, h⟩ := h
    cases r with
    | none => cases h
    | some es' =>
      intro k a ha hs
      cases k with
      | zero =>
        simp at ha
        subst ha
        have : isOr e = true := by unfold isOr; simp [hs]
        simp only [this, true_and] at hpos
        omega
      | succ k =>
        have := preLoop_xor h1 k a (by simpa using ha) hs
        omega

theorem preprocess_xor {g g' : List AEntry} (h : preprocess g = ok (some g')) : XorInside g := by
  unfold preprocess at h
  dsimp only at h
  change (if lastIdx g = g.length then ub else preLoop (lastIdx g) (g.take (lastIdx g)) 0 none false false >>= fun r =>
    ok (r.map (· ++ g.drop (lastIdx g)))) = ok (some g') at h
  split at h
  · cases h
  · rw [bind_eq_ok] at h
    obtain ⟨r, h1, h⟩ := h
    cases r with
    | none => cases h
    | some es' =>
      intro k hk e he hs
      have := preLoop_xor h1 k e (by rw [List.getElem?_take, if_pos hk]; exact he) hs
      omega

theorem XorInside.core {g g' : List AEntry} (h : coresOf g' = coresOf g) (hg : XorInside g) : XorInside g' := by
  intro k hk e' he' hs
  have hci := congrArg (fun l => l[k]?) h
  simp only [coresOf, List.getElem?_map, he', Option.map_some] at hci
  cases hri : g[k]? with
  | none => rw [hri] at hci; cases hci
  | some e =>
    rw [hri] at hci
    simp only [Option.map_some, Option.some.injEq] at hci
    have h1 := congrArg AEntry.short hci
    have h1 : e'.short = e.short := h1
    rw [lastIdx_core h]
    exact hg k (by rw [← lastIdx_core h]; exact hk) e hri (by rw [← h1]; exact hs)

end Wdns
