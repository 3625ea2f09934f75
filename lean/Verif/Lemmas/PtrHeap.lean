import Verif.Spec.PtrHeap
import Mathlib.Data.Nat.Log

/-!
# Lemmas: the heap
-/

namespace Wdns
open Outcome Spec

variable {α : Type}

theorem vAt_some {v : List α} {i : Nat} {x : α} (h : v[i]? = some x) : vAt v i = ok x := by unfold vAt; rw [h]

theorem vAt_lt {v : List α} {i : Nat} (h : i < v.length) : ∃ x, v[i]? = some x ∧ vAt v i = ok x :=
  ⟨v[i], List.getElem?_eq_getElem h, vAt_some (List.getElem?_eq_getElem h)⟩

/-- Moving an item: what is in the vector with `x` in the hole does not change. -/
theorem hole_perm {v : List α} {p q : Nat} {x y : α} (hp : p < v.length) (hq : v[q]? = some y) (hpq : p ≠ q) :
    ((v.set p y).set q x).Perm (v.set p x) := by
  have hq' : q < v.length := by
    have := List.getElem?_eq_some_iff.mp hq; exact this.1
  have h := List.set_set_perm (as := v.set p x) (i := p) (j := q) (by simpa using hp) (by simpa using hq')
  have e1 : (v.set p x)[p]'(by simpa using hp) = x := by simp
  have e2 : (v.set p x)[q]'(by simpa using hq') = y := by
    rw [List.getElem_set_ne hpq]
    have := List.getElem?_eq_some_iff.mp hq
    exact this.2
  rw [e1, e2, List.set_set] at h
  exact h

/-- The loop of `siftdown`, whatever the comparison function answers. -/
theorem siftdownLoop_bag (cmp : α → α → Int) (x : α) : ∀ (fuel : Nat) (v : List α) (pos k : Nat), pos < v.length → pos < fuel →
    ∃ v' k', siftdownLoop cmp 0 x fuel v pos k = ok (v', k') ∧ v'.Perm (v.set pos x) ∧ k' ≤ k + Nat.log 2 (pos + 1)
  | 0, _, _, _, _, hf => by omega
  | fuel + 1, v, pos, k, hp, hf => by
    unfold siftdownLoop
    by_cases h0 : pos > 0
    · rw [if_pos h0]
      have hpp : (pos - 1) >>> 1 = (pos - 1) / 2 := by rw [Nat.shiftRight_eq_div_pow]
      dsimp only
      rw [hpp]
      have hq : (pos - 1) / 2 < v.length := by omega
      obtain ⟨y, hy, hv⟩ := vAt_lt hq
      rw [hv, ok_bind]
      have hlog : Nat.log 2 (pos + 1) = Nat.log 2 ((pos - 1) / 2 + 1) + 1 := by
        rw [Nat.log_of_one_lt_of_le (by decide) (by omega), show (pos + 1) / 2 = (pos - 1) / 2 + 1 from by omega]
      by_cases hc : cmpWrapper cmp x y = true
      · rw [if_pos hc]
        unfold vPut
        rw [if_pos hp, ok_bind]
        obtain ⟨v', k', h1, h2, h3⟩ := siftdownLoop_bag cmp x fuel (v.set pos y) ((pos - 1) / 2) (k + 1) (by simpa using hq) (by omega)
        exact ⟨v', k', h1, h2.trans (hole_perm hp hy (by omega)), by omega⟩
      · rw [if_neg hc]
        unfold vPut
        rw [if_pos hp, ok_bind]
        exact ⟨_, _, rfl, List.Perm.refl _, by omega⟩
    · rw [if_neg h0]
      unfold vPut
      rw [if_pos hp, ok_bind]
      exact ⟨_, _, rfl, List.Perm.refl _, by omega⟩

theorem siftdown_bag (cmp : α → α → Int) (v : List α) (pos k : Nat) (h : pos < v.length) :
    ∃ v' k', siftdown cmp v 0 pos k = ok (v', k') ∧ v'.Perm v ∧ k' ≤ k + Nat.log 2 (pos + 1) := by
  unfold siftdown
  rw [if_pos h]
  obtain ⟨x, hx, hv⟩ := vAt_lt h
  rw [hv, ok_bind]
  obtain ⟨v', k', h1, h2, h3⟩ := siftdownLoop_bag cmp x (pos + 1) v pos k h (by omega)
  refine ⟨v', k', h1, h2.trans ?_, h3⟩
  rw [List.getElem?_eq_some_iff] at hx
  obtain ⟨h4, h5⟩ := hx
  rw [← h5, List.set_getElem_self]

/-- Which child the loop of `siftup` takes. -/
theorem siftup_child (cmp : α → α → Int) (v : List α) (pos k : Nat) (h : 2 * pos + 1 < v.length) :
    ∃ c k', (if 2 * pos + 1 + 1 < v.length then do
          let a ← vAt v (2 * pos + 1)
          let b ← vAt v (2 * pos + 1 + 1)
          if cmpWrapper cmp a b then ok (2 * pos + 1, k + 1) else ok (2 * pos + 1 + 1, k + 1)
        else ok (2 * pos + 1, k)) = ok (c, k') ∧ (c = 2 * pos + 1 ∨ c = 2 * pos + 2) ∧ c < v.length ∧ k' ≤ k + 1 ∧
      (∀ x s i, v[c]? = some x → v[i]? = some s → (i = 2 * pos + 1 ∨ i = 2 * pos + 2) → i ≠ c → (cmpWrapper cmp x s = true ∨ cmpWrapper cmp s x = false)) := by
  by_cases h2 : 2 * pos + 1 + 1 < v.length
  · rw [if_pos h2]
    obtain ⟨a, ha, hva⟩ := vAt_lt h
    obtain ⟨b, hb, hvb⟩ := vAt_lt h2
    rw [hva, ok_bind, hvb, ok_bind]
    by_cases hc : cmpWrapper cmp a b = true
    · rw [if_pos hc]
      refine ⟨_, _, rfl, Or.inl rfl, h, Nat.le_refl _, ?_⟩
      intro x s i hx hs hi hne
      have : i = 2 * pos + 1 + 1 := by omega
      subst this
      rw [ha] at hx; rw [hb] at hs
      cases hx; cases hs
      exact Or.inl hc
    · rw [if_neg hc]
      refine ⟨_, _, rfl, Or.inr rfl, h2, Nat.le_refl _, ?_⟩
      intro x s i hx hs hi hne
      have : i = 2 * pos + 1 := by omega
      subst this
      rw [hb] at hx; rw [ha] at hs
      cases hx; cases hs
      exact Or.inr (by simpa using hc)
  · rw [if_neg h2]
    refine ⟨_, _, rfl, Or.inl rfl, h, Nat.le_succ _, ?_⟩
    intro x s i hx hs hi hne
    have : i = 2 * pos + 1 + 1 := by omega
    subst this
    have := (List.getElem?_eq_some_iff.mp hs).1
    omega

theorem siftupLoop_bag (cmp : α → α → Int) : ∀ (fuel : Nat) (v : List α) (pos k : Nat), pos < v.length → v.length < pos + fuel + 1 →
    ∃ v' p k', siftupLoop cmp fuel v pos k = ok (v', p, k') ∧ p < v'.length ∧ v'.length = v.length ∧ (∀ x, (v'.set p x).Perm (v.set pos x)) ∧
      k' + Nat.log 2 (pos + 1) ≤ k + Nat.log 2 (p + 1)
  | 0, _, _, _, _, hf => by omega
  | fuel + 1, v, pos, k, hp, hf => by
    unfold siftupLoop
    dsimp only
    by_cases h : 2 * pos + 1 < v.length
    · rw [if_pos h]
      obtain ⟨c, k1, h1, h2, h3, h4, _⟩ := siftup_child cmp v pos k h
      rw [h1, ok_bind]
      dsimp only
      obtain ⟨y, hy, hv⟩ := vAt_lt h3
      rw [hv, ok_bind]
      unfold vPut
      rw [if_pos hp, ok_bind]
      obtain ⟨v', p, k', g1, g2, g3, g4, g5⟩ := siftupLoop_bag cmp fuel (v.set pos y) c k1 (by simpa using h3) (by
        simp only [List.length_set]; omega)
      have hlog : Nat.log 2 (c + 1) = Nat.log 2 (pos + 1) + 1 := by
        rw [Nat.log_of_one_lt_of_le (by decide) (by omega), show (c + 1) / 2 = pos + 1 from by omega]
      refine ⟨v', p, k', g1, g2, by simpa using g3, ?_, by omega⟩
      intro x
      exact (g4 x).trans (hole_perm hp hy (by omega))
    · rw [if_neg h]
      exact ⟨v, pos, k, rfl, hp, rfl, fun _ => List.Perm.refl _, by omega⟩

theorem siftup_bag (cmp : α → α → Int) (v : List α) (h : 0 < v.length) :
    ∃ v' k', siftup cmp v 0 = ok (v', k') ∧ v'.Perm v ∧ k' ≤ 2 * Nat.log 2 v.length := by
  unfold siftup
  rw [if_pos h]
  obtain ⟨x, hx, hv⟩ := vAt_lt h
  rw [hv, ok_bind]
  obtain ⟨v', p, k', g1, g2, g3, g4, g5⟩ := siftupLoop_bag cmp (v.length + 1) v 0 0 h (by omega)
  rw [g1, ok_bind]
  dsimp only
  unfold vPut
  rw [if_pos g2, ok_bind]
  obtain ⟨v2, k2, e1, e2, e3⟩ := siftdown_bag cmp (v'.set p x) p k' (by simpa using g2)
  refine ⟨v2, k2, e1, e2.trans ((g4 x).trans ?_), ?_⟩
  · rw [List.getElem?_eq_some_iff] at hx
    obtain ⟨h4, h5⟩ := hx
    rw [← h5, List.set_getElem_self]
  · have : Nat.log 2 (p + 1) ≤ Nat.log 2 v.length := Nat.log_mono_right (by omega)
    simp at g5
    omega

end Wdns
