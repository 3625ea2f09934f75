import Verif.Lemmas.PtrHeap

/-!
# Lemmas: the order of the heap
-/

namespace Wdns
open Outcome Spec

variable {α : Type}

/-- No item goes before its parent. -/
def HeapV (cmp : α → α → Int) (v : List α) : Prop := ∀ i x p, 0 < i → v[i]? = some x → v[(i - 1) / 2]? = some p → ¬ Before cmp x p

/-- The same but for a hole at `pos`, across which it holds. -/
structure HoleV (cmp : α → α → Int) (v : List α) (pos : Nat) : Prop where
  off : ∀ i x p, 0 < i → i ≠ pos → (i - 1) / 2 ≠ pos → v[i]? = some x → v[(i - 1) / 2]? = some p → ¬ Before cmp x p
  across : ∀ i x p, 0 < i → (i - 1) / 2 = pos → 0 < pos → v[i]? = some x → v[(pos - 1) / 2]? = some p → ¬ Before cmp x p

/-- `new` may be put in the hole as far as the children of the hole are concerned. -/
def ChildV (cmp : α → α → Int) (v : List α) (pos : Nat) (new : α) : Prop :=
  ∀ i x, 0 < i → (i - 1) / 2 = pos → v[i]? = some x → ¬ Before cmp x new

theorem get_set_eq {v : List α} {i : Nat} {x y : α} (h : (v.set i x)[i]? = some y) : y = x := by
  rw [List.getElem?_set] at h
  rw [if_pos rfl] at h
  split at h
  · exact (Option.some.inj h).symm
  · cases h

theorem get_set_ne {v : List α} {i j : Nat} {x : α} (h : i ≠ j) : (v.set i x)[j]? = v[j]? := List.getElem?_set_ne h

theorem fill_heap {cmp : α → α → Int} {v : List α} {pos : Nat} {new : α} (h : HoleV cmp v pos) (hc : ChildV cmp v pos new)
    (hp : ∀ p, 0 < pos → v[(pos - 1) / 2]? = some p → ¬ Before cmp new p) : HeapV cmp (v.set pos new) := by
  intro i x p hi hx hpar
  by_cases h1 : i = pos
  · subst h1
    rw [get_set_eq hx]
    rw [get_set_ne (by omega)] at hpar
    exact hp p hi hpar
  · rw [get_set_ne (Ne.symm h1)] at hx
    by_cases h2 : (i - 1) / 2 = pos
    · rw [h2] at hpar
      rw [get_set_eq hpar]
      exact hc i x hi h2 hx
    · rw [get_set_ne (Ne.symm h2)] at hpar
      exact h.off i x p hi h1 h2 hx hpar

theorem siftdownLoop_heap {cmp : α → α → Int} (ho : Orders cmp) (new : α) : ∀ (fuel : Nat) (v : List α) (pos k : Nat) (v' : List α) (k' : Nat),
    HoleV cmp v pos → ChildV cmp v pos new → siftdownLoop cmp 0 new fuel v pos k = ok (v', k') → HeapV cmp v'
  | 0, _, _, _, _, _, _, _, hr => by simp [siftdownLoop] at hr
  | fuel + 1, v, pos, k, v', k', h, hc, hr => by
    unfold siftdownLoop at hr
    have hpp : (pos - 1) >>> 1 = (pos - 1) / 2 := by rw [Nat.shiftRight_eq_div_pow]
    dsimp only at hr
    rw [hpp] at hr
    by_cases h0 : pos > 0
    · rw [if_pos h0] at hr
      cases hpar : v[(pos - 1) / 2]? with
      | none =>
        unfold vAt at hr
        rw [hpar] at hr
        simp at hr
      | some par =>
        rw [vAt_some hpar, ok_bind] at hr
        by_cases hcmp : cmpWrapper cmp new par = true
        · rw [if_pos hcmp] at hr
          unfold vPut at hr
          by_cases hp : pos < v.length
          · rw [if_pos hp, ok_bind] at hr
            have hlt : Before cmp new par := by simpa [cmpWrapper, Before] using hcmp
            have hle := ho.asymm _ _ hlt
            refine siftdownLoop_heap ho new fuel _ _ _ _ _ ?_ ?_ hr
            · constructor
              · intro i x p hi h1 h2 hx hpi
                have h3 : i ≠ pos := fun e => h2 (by rw [e])
                rw [get_set_ne (Ne.symm h3)] at hx
                by_cases h4 : (i - 1) / 2 = pos
                · rw [h4] at hpi
                  rw [get_set_eq hpi]
                  exact h.across i x par hi h4 h0 hx hpar
                · rw [get_set_ne (Ne.symm h4)] at hpi
                  exact h.off i x p hi h3 h4 hx hpi
              · intro i x p hi h1 h2 hx hpi
                rw [get_set_ne (by omega)] at hpi
                have hpq : ¬ Before cmp par p := h.off ((pos - 1) / 2) par p h2 (by omega) (by omega) hpar hpi
                by_cases h3 : i = pos
                · subst h3
                  rw [get_set_eq hx]
                  exact hpq
                · rw [get_set_ne (Ne.symm h3)] at hx
                  have := h.off i x par hi h3 (by omega) hx (by rw [h1]; exact hpar)
                  exact ho.trans p par x hpq this
            · intro i x hi h1 hx
              by_cases h3 : i = pos
              · subst h3
                rw [get_set_eq hx]
                exact hle
              · rw [get_set_ne (Ne.symm h3)] at hx
                have := h.off i x par hi h3 (by omega) hx (by rw [h1]; exact hpar)
                exact ho.trans new par x hle this
          · rw [if_neg hp] at hr; simp at hr
        · rw [if_neg hcmp] at hr
          unfold vPut at hr
          split at hr
          · rw [ok_bind, ok.injEq, Prod.mk.injEq] at hr
            rw [← hr.1]
            refine fill_heap h hc ?_
            intro p _ hp
            rw [hpar] at hp
            cases hp
            simpa [cmpWrapper, Before] using hcmp
          · simp at hr
    · rw [if_neg h0] at hr
      unfold vPut at hr
      split at hr
      · rw [ok_bind, ok.injEq, Prod.mk.injEq] at hr
        rw [← hr.1]
        exact fill_heap h hc (fun p hp => absurd hp h0)
      · simp at hr

theorem HoleV.of_set {cmp : α → α → Int} {v : List α} {pos : Nat} {x : α} (h : HoleV cmp v pos) : HoleV cmp (v.set pos x) pos := by
  constructor
  · intro i y p hi h1 h2 hy hp
    rw [get_set_ne (Ne.symm h1)] at hy
    rw [get_set_ne (Ne.symm h2)] at hp
    exact h.off i y p hi h1 h2 hy hp
  · intro i y p hi h1 h2 hy hp
    rw [get_set_ne (by omega)] at hy
    rw [get_set_ne (by omega)] at hp
    exact h.across i y p hi h1 h2 hy hp

theorem siftdown_heap {cmp : α → α → Int} (ho : Orders cmp) {v : List α} {pos k : Nat} {v' : List α} {k' : Nat} (h : HoleV cmp v pos)
    (hleaf : ∀ x, v[pos]? = some x → ChildV cmp v pos x) (hr : siftdown cmp v 0 pos k = ok (v', k')) : HeapV cmp v' := by
  unfold siftdown at hr
  by_cases hp : pos < v.length
  · rw [if_pos hp] at hr
    obtain ⟨x, hx, hv⟩ := vAt_lt hp
    rw [hv, ok_bind] at hr
    exact siftdownLoop_heap ho x _ _ _ _ _ _ h (hleaf x hx) hr
  · rw [if_neg hp] at hr; cases hr

theorem siftupLoop_heap {cmp : α → α → Int} (ho : Orders cmp) : ∀ (fuel : Nat) (v : List α) (pos k : Nat) (v' : List α) (p k' : Nat),
    HoleV cmp v pos → siftupLoop cmp fuel v pos k = ok (v', p, k') → HoleV cmp v' p ∧ v'.length ≤ 2 * p + 1
  | 0, _, _, _, _, _, _, _, hr => by simp [siftupLoop] at hr
  | fuel + 1, v, pos, k, v', p, k', h, hr => by
    unfold siftupLoop at hr
    dsimp only at hr
    by_cases hch : 2 * pos + 1 < v.length
    · rw [if_pos hch] at hr
      obtain ⟨c, k1, h1, h2, h3, h4, hmin⟩ := siftup_child cmp v pos k hch
      rw [h1, ok_bind] at hr
      dsimp only at hr
      obtain ⟨y, hy, hv⟩ := vAt_lt h3
      rw [hv, ok_bind] at hr
      unfold vPut at hr
      rw [if_pos (by omega), ok_bind] at hr
      refine siftupLoop_heap ho fuel _ _ _ _ _ _ ?_ hr
      have hpc : (c - 1) / 2 = pos := by omega
      constructor
      · intro i x q hi g1 g2 hx hq
        by_cases e1 : i = pos
        · subst e1
          rw [get_set_eq hx]
          rw [get_set_ne (by omega)] at hq
          exact h.across c y q (by omega) hpc hi hy hq
        · rw [get_set_ne (Ne.symm e1)] at hx
          by_cases e2 : (i - 1) / 2 = pos
          · rw [e2] at hq
            rw [get_set_eq hq]
            rcases hmin y x i hy hx (by omega) g1 with hm | hm
            · exact ho.asymm _ _ (by simpa [cmpWrapper, Before] using hm)
            · simpa [cmpWrapper, Before] using hm
          · rw [get_set_ne (Ne.symm e2)] at hq
            exact h.off i x q hi e1 e2 hx hq
      · intro i x q hi g1 g2 hx hq
        rw [hpc] at hq
        rw [get_set_eq hq]
        rw [get_set_ne (by omega)] at hx
        exact h.off i x y hi (by omega) (by omega) hx (by rw [g1]; exact hy)
    · rw [if_neg hch, ok.injEq, Prod.mk.injEq, Prod.mk.injEq] at hr
      obtain ⟨rfl, rfl, rfl⟩ := hr
      exact ⟨h, by omega⟩

theorem siftup_heap {cmp : α → α → Int} (ho : Orders cmp) {v v' : List α} {k : Nat} (h : HoleV cmp v 0) (hr : siftup cmp v 0 = ok (v', k)) :
    HeapV cmp v' := by
  unfold siftup at hr
  by_cases hp : 0 < v.length
  · rw [if_pos hp] at hr
    obtain ⟨x, hx, hv⟩ := vAt_lt hp
    rw [hv, ok_bind] at hr
    obtain ⟨w, p, k1, g1, g2, g3, _, _⟩ := siftupLoop_bag cmp (v.length + 1) v 0 0 hp (by omega)
    rw [g1, ok_bind] at hr
    dsimp only at hr
    unfold vPut at hr
    rw [if_pos g2, ok_bind] at hr
    obtain ⟨hh, hlen⟩ := siftupLoop_heap ho _ _ _ _ _ _ _ h g1
    refine siftdown_heap ho hh.of_set ?_ hr
    intro y _ i z hi hpar hz
    have := (List.getElem?_eq_some_iff.mp hz).1
    simp only [List.length_set] at this
    omega
  · rw [if_neg hp] at hr; cases hr

theorem HeapV.hole {cmp : α → α → Int} {v : List α} (h : HeapV cmp v) (x : α) : HoleV cmp (v.set 0 x) 0 := by
  apply HoleV.of_set
  constructor
  · intro i y p hi _ _ hy hp
    exact h i y p hi hy hp
  · intro i y p _ _ h0
    omega

/-- The item in front of a heap goes before all others. -/
theorem heap_first {cmp : α → α → Int} (ho : Orders cmp) {v : List α} (h : HeapV cmp v) (m : α) (hm : v[0]? = some m) :
    ∀ (n i : Nat) (x : α), i ≤ n → v[i]? = some x → ¬ Before cmp x m
  | n, 0, x, _, hx => by
    rw [hm] at hx; cases hx
    intro hb
    exact ho.asymm _ _ hb hb
  | 0, i + 1, _, hi, _ => by omega
  | n + 1, i + 1, x, hi, hx => by
    have hlt := (List.getElem?_eq_some_iff.mp hx).1
    have hp : (i + 1 - 1) / 2 < v.length := by omega
    obtain ⟨p, hp, _⟩ := vAt_lt hp
    have h1 := h (i + 1) x p (by omega) hx hp
    have h2 := heap_first ho h m hm n ((i + 1 - 1) / 2) p (by omega) hp
    exact ho.trans m p x h2 h1

end Wdns
