import Verif.Lemmas.PtrHeapOrder

/-!
# C85: the priority queue
-/

namespace Wdns
open Outcome Spec

variable {α : Type}

theorem push_bag (cmp : α → α → Int) (v : List α) (x : α) :
    ∃ v' k, heapPush cmp v x = ok (v', k) ∧ v'.Perm (x :: v) ∧ k ≤ Nat.log 2 (v.length + 1) := by
  unfold heapPush
  dsimp only
  obtain ⟨v', k, h1, h2, h3⟩ := siftdown_bag cmp (v ++ [x]) ((v ++ [x]).length - 1) 0 (by simp)
  refine ⟨v', k, h1, h2.trans List.perm_append_comm, ?_⟩
  simpa using h3

theorem push_heap {cmp : α → α → Int} (ho : Orders cmp) {v v' : List α} {x : α} {k : Nat} (h : HeapV cmp v)
    (hr : heapPush cmp v x = ok (v', k)) : HeapV cmp v' := by
  unfold heapPush at hr
  dsimp only at hr
  have e : (v ++ [x]).length - 1 = v.length := by simp
  rw [e] at hr
  refine siftdown_heap ho ⟨?_, ?_⟩ ?_ hr
  · intro i y p hi h1 h2 hy hp
    have hl := (List.getElem?_eq_some_iff.mp hy).1
    simp only [List.length_append, List.length_cons, List.length_nil] at hl
    rw [List.getElem?_append_left (by omega)] at hy hp
    exact h i y p hi hy hp
  · intro i y p hi h1 h2 hy hp
    have hl := (List.getElem?_eq_some_iff.mp hy).1
    simp only [List.length_append, List.length_cons, List.length_nil] at hl
    omega
  · intro z _ i y hi h1 hy
    have hl := (List.getElem?_eq_some_iff.mp hy).1
    simp only [List.length_append, List.length_cons, List.length_nil] at hl
    omega

/-- Popping from a vector that is not empty. -/
theorem pop_bag (cmp : α → α → Int) (v : List α) (m : α) (hm : v[0]? = some m) :
    ∃ v' k, heapPop cmp v = ok (v', some m, k) ∧ v.Perm (m :: v') ∧ k ≤ 2 * Nat.log 2 v.length := by
  have hlen := (List.getElem?_eq_some_iff.mp hm).1
  unfold heapPop
  rw [if_neg (by omega)]
  obtain ⟨l, hl, hv⟩ := vAt_lt (v := v) (i := v.length - 1) (by omega)
  rw [hv, ok_bind]
  dsimp only
  have htl : (v.take (v.length - 1)).length = v.length - 1 := by simp
  have hsplit : v = v.take (v.length - 1) ++ [l] := by
    have h1 : v.drop (v.length - 1) = [l] := by
      rw [List.drop_eq_getElem_cons (by omega)]
      have := (List.getElem?_eq_some_iff.mp hl).2
      rw [this, List.drop_eq_nil_of_le (by omega)]
    conv_lhs => rw [← List.take_append_drop (v.length - 1) v, h1]
  by_cases h1 : (v.take (v.length - 1)).length > 0
  · rw [if_pos h1]
    have hm' : (v.take (v.length - 1))[0]? = some m := by rw [List.getElem?_take]; rw [if_pos (by omega)]; exact hm
    rw [vAt_some hm', ok_bind]
    unfold vPut
    rw [if_pos h1, ok_bind]
    obtain ⟨v', k, g1, g2, g3⟩ := siftup_bag cmp ((v.take (v.length - 1)).set 0 l) (by simpa using h1)
    rw [g1, ok_bind]
    refine ⟨v', k, rfl, ?_, ?_⟩
    · cases hw : v.take (v.length - 1) with
      | nil => rw [hw] at h1; simp at h1
      | cons a w =>
        rw [hw] at hm' g2 hsplit
        have ha : a = m := by simpa using hm'
        subst ha
        rw [hsplit]
        rw [List.set_cons_zero] at g2
        exact (List.Perm.cons a (List.perm_append_comm.trans g2.symm))
    · rw [List.length_set, htl] at g3
      exact Nat.le_trans g3 (Nat.mul_le_mul_left 2 (Nat.log_mono_right (by omega)))
  · rw [if_neg h1]
    have h2 : v.length = 1 := by omega
    have h3 : v.take (v.length - 1) = [] := by rw [h2]; simp
    rw [h3] at hsplit ⊢
    have : l = m := by rw [hsplit] at hm; simpa using hm
    subst this
    refine ⟨[], 0, rfl, ?_, by omega⟩
    rw [hsplit]; exact List.Perm.refl _

theorem pop_heap {cmp : α → α → Int} (ho : Orders cmp) {v v' : List α} {r : Option α} {k : Nat} (h : HeapV cmp v)
    (hr : heapPop cmp v = ok (v', r, k)) : HeapV cmp v' := by
  unfold heapPop at hr
  by_cases h1 : v.length < 1
  · rw [if_pos h1, ok.injEq, Prod.mk.injEq] at hr
    rw [← hr.1]; exact h
  · rw [if_neg h1] at hr
    obtain ⟨l, hl, hv⟩ := vAt_lt (v := v) (i := v.length - 1) (by omega)
    rw [hv, ok_bind] at hr
    dsimp only at hr
    have htake : HeapV cmp (v.take (v.length - 1)) := by
      intro i x p hi hx hp
      rw [List.getElem?_take] at hx hp
      split at hx
      · split at hp
        · exact h i x p hi hx hp
        · cases hp
      · cases hx
    by_cases h2 : (v.take (v.length - 1)).length > 0
    · rw [if_pos h2] at hr
      obtain ⟨m, hm, hvm⟩ := vAt_lt h2
      rw [hvm, ok_bind] at hr
      unfold vPut at hr
      rw [if_pos h2, ok_bind] at hr
      obtain ⟨w, k1, g1, _, _⟩ := siftup_bag cmp ((v.take (v.length - 1)).set 0 l) (by simpa using h2)
      rw [g1, ok_bind, ok.injEq, Prod.mk.injEq] at hr
      rw [← hr.1]
      exact siftup_heap ho (htake.hole l) g1
    · rw [if_neg h2, ok.injEq, Prod.mk.injEq] at hr
      rw [← hr.1]; exact htake

theorem replace_bag (cmp : α → α → Int) (v : List α) (x m : α) (hm : v[0]? = some m) :
    ∃ v' k rest, heapReplace cmp v x = ok (v', some m, k) ∧ v.Perm (m :: rest) ∧ v'.Perm (x :: rest) ∧ k ≤ 2 * Nat.log 2 v.length := by
  have hlen := (List.getElem?_eq_some_iff.mp hm).1
  unfold heapReplace
  rw [if_neg (by omega), vAt_some hm, ok_bind]
  unfold vPut
  rw [if_pos hlen, ok_bind]
  obtain ⟨v', k, g1, g2, g3⟩ := siftup_bag cmp (v.set 0 x) (by simpa using hlen)
  rw [g1, ok_bind]
  cases v with
  | nil => simp at hlen
  | cons a w =>
    have ha : a = m := by simpa using hm
    subst ha
    rw [List.set_cons_zero] at g2
    exact ⟨v', k, w, rfl, List.Perm.refl _, g2, by simpa using g3⟩

theorem replace_heap {cmp : α → α → Int} (ho : Orders cmp) {v v' : List α} {x : α} {r : Option α} {k : Nat} (h : HeapV cmp v)
    (hr : heapReplace cmp v x = ok (v', r, k)) : HeapV cmp v' := by
  unfold heapReplace at hr
  by_cases h1 : v.length < 1
  · rw [if_pos h1, ok.injEq, Prod.mk.injEq] at hr
    rw [← hr.1]; exact h
  · rw [if_neg h1] at hr
    obtain ⟨m, hm, hvm⟩ := vAt_lt (v := v) (i := 0) (by omega)
    rw [hvm, ok_bind] at hr
    unfold vPut at hr
    rw [if_pos (by omega), ok_bind] at hr
    obtain ⟨w, k1, g1, _, _⟩ := siftup_bag cmp (v.set 0 x) (by simp; omega)
    rw [g1, ok_bind, ok.injEq, Prod.mk.injEq] at hr
    rw [← hr.1]
    exact siftup_heap ho (h.hole x) g1

/-- One call on the vector is one call on the bag, and makes few comparisons. -/
theorem op_bag (cmp : α → α → Int) (v : List α) (o : HOp α) (best : List α → α → Prop) (hb : ∀ m, v[0]? = some m → best v m) :
    ∃ v' r k, heapOp cmp v o = ok (v', r, k) ∧ BagStep best v o r v' ∧ k ≤ 2 * Nat.log 2 (v.length + 1) := by
  have hmono : ∀ k, k ≤ 2 * Nat.log 2 v.length → k ≤ 2 * Nat.log 2 (v.length + 1) := fun k hk =>
    Nat.le_trans hk (Nat.mul_le_mul_left 2 (Nat.log_mono_right (by omega)))
  have hget : ∀ a w, v = a :: w → v[0]? = some a := fun a w e => by rw [e]; rfl
  cases o with
  | push x =>
    obtain ⟨v', k, h1, h2, h3⟩ := push_bag cmp v x
    refine ⟨v', none, k, ?_, .push h2, by omega⟩
    simp only [heapOp]; rw [h1, ok_bind]
  | pop =>
    cases hv : v with
    | nil => exact ⟨[], none, 0, rfl, .popNone, Nat.zero_le _⟩
    | cons a w =>
      obtain ⟨v', k, h1, h2, h3⟩ := pop_bag cmp v a (hget a w hv)
      rw [hv] at h1 h2
      exact ⟨v', some a, k, h1, .pop h2 (by rw [← hv]; exact hb a (hget a w hv)), by rw [← hv]; exact hmono k h3⟩
  | replace x =>
    cases hv : v with
    | nil => exact ⟨[], none, 0, rfl, .replaceNone, Nat.zero_le _⟩
    | cons a w =>
      obtain ⟨v', k, rest, h1, h2, h3, h4⟩ := replace_bag cmp v x a (hget a w hv)
      rw [hv] at h1 h2
      exact ⟨v', some a, k, h1, .replace h2 h3 (by rw [← hv]; exact hb a (hget a w hv)), by rw [← hv]; exact hmono k h4⟩
  | peek =>
    cases hv : v with
    | nil => exact ⟨[], none, 0, rfl, .peekNone, Nat.zero_le _⟩
    | cons a w =>
      refine ⟨a :: w, some a, 0, ?_, .peek (List.Perm.refl _) List.mem_cons_self (by rw [← hv]; exact hb a (hget a w hv)), Nat.zero_le _⟩
      simp [heapOp, heapPeek, vAt]

theorem op_heap {cmp : α → α → Int} (ho : Orders cmp) {v v' : List α} {o : HOp α} {r : HRet α} (h : HeapV cmp v)
    (hr : heapOp cmp v o = ok (v', r)) : HeapV cmp v' := by
  cases o with
  | push x =>
    obtain ⟨w, k, h1, _, _⟩ := push_bag cmp v x
    simp only [heapOp] at hr
    rw [h1, ok_bind, ok.injEq, Prod.mk.injEq] at hr
    rw [← hr.1]
    exact push_heap ho h h1
  | pop => obtain ⟨a, b⟩ := r; exact pop_heap ho h hr
  | replace x => obtain ⟨a, b⟩ := r; exact replace_heap ho h hr
  | peek =>
    simp only [heapOp] at hr
    cases hp : heapPeek v with
    | ok a => rw [hp, ok_bind, ok.injEq, Prod.mk.injEq] at hr; rw [← hr.1]; exact h
    | err _ => rw [hp] at hr; simp at hr
    | ub => rw [hp] at hr; simp at hr
    | hang => rw [hp] at hr; simp at hr
    | abort => rw [hp] at hr; simp at hr

/-- **C85.** Whatever the comparison function answers, every sequence of calls on a new heap stays within its storage, no call fails to return, and
nothing is lost or duplicated: the heap is the bag of what was put in and not taken out; NULL is returned exactly on an empty heap (and
`heap_replace` then inserts nothing). -/
theorem C85_bag (cmp : α → α → Int) (ops : List (HOp α)) :
    ∃ v rs, heapRun cmp [] ops = ok (v, rs) ∧ BagRun (fun bag m => m ∈ bag) [] ops (rs.map Prod.fst) v := by
  suffices ∀ (ops : List (HOp α)) (v : List α), ∃ v' rs, heapRun cmp v ops = ok (v', rs) ∧ BagRun (fun bag m => m ∈ bag) v ops (rs.map Prod.fst) v' from
    this ops []
  intro ops
  induction ops with
  | nil => intro v; exact ⟨v, [], rfl, .nil⟩
  | cons o os ih =>
    intro v
    obtain ⟨v1, r, k, h1, h2, _⟩ := op_bag cmp v o (fun bag m => m ∈ bag) (fun m hm => List.mem_of_getElem? hm)
    obtain ⟨v2, rs, h3, h4⟩ := ih v1
    refine ⟨v2, (r, k) :: rs, ?_, .cons h2 h4⟩
    simp only [heapRun]
    rw [h1, ok_bind]
    dsimp only
    rw [h3, ok_bind]

/-- **C85.** If the comparison function orders the items, what is returned goes before everything else in the heap. -/
theorem C85_first (cmp : α → α → Int) (ho : Orders cmp) (ops : List (HOp α)) :
    ∃ v rs, heapRun cmp [] ops = ok (v, rs) ∧ BagRun (First cmp) [] ops (rs.map Prod.fst) v := by
  suffices ∀ (ops : List (HOp α)) (v : List α), HeapV cmp v → ∃ v' rs, heapRun cmp v ops = ok (v', rs) ∧
      BagRun (First cmp) v ops (rs.map Prod.fst) v' from
    this ops [] (by intro i x p _ hx; simp at hx)
  intro ops
  induction ops with
  | nil => intro v _; exact ⟨v, [], rfl, .nil⟩
  | cons o os ih =>
    intro v hh
    obtain ⟨v1, r, k, h1, h2, _⟩ := op_bag cmp v o (First cmp) (fun m hm x hx => by
      obtain ⟨i, hi⟩ := List.mem_iff_getElem?.mp hx
      exact heap_first ho hh m hm i i x (Nat.le_refl i) hi)
    obtain ⟨v2, rs, h3, h4⟩ := ih v1 (op_heap ho hh h1)
    refine ⟨v2, (r, k) :: rs, ?_, .cons h2 h4⟩
    simp only [heapRun]
    rw [h1, ok_bind]
    dsimp only
    rw [h3, ok_bind]

/-- **C85.** A call on a heap of `n` items makes at most `2 log₂ (n + 1)` comparisons. -/
theorem C85_cost (cmp : α → α → Int) (v : List α) (o : HOp α) (v' : List α) (r : Option α) (k : Nat)
    (h : heapOp cmp v o = ok (v', r, k)) : k ≤ 2 * Nat.log 2 (v.length + 1) := by
  obtain ⟨w, r', k', h1, _, h2⟩ := op_bag cmp v o (fun _ _ => True) (fun _ _ => trivial)
  rw [h1, ok.injEq, Prod.mk.injEq, Prod.mk.injEq] at h
  rw [← h.2.2]
  exact h2

theorem bagRun_pushes {best : List α → α → Prop} (xs : List α) : ∀ {bag : List α} {ops : List (HOp α)} {rs : List (Option α)} {bag' : List α},
    BagRun best bag (xs.map HOp.push ++ ops) rs bag' → ∃ mid rs', mid.Perm (xs ++ bag) ∧ rs = xs.map (fun _ => none) ++ rs' ∧ BagRun best mid ops rs' bag' := by
  induction xs with
  | nil => intro bag ops rs bag' h; exact ⟨bag, rs, List.Perm.refl _, rfl, h⟩
  | cons x xs ih =>
    intro bag ops rs bag' h
    rw [List.map_cons, List.cons_append] at h
    cases h with
    | cons h1 h2 =>
      cases h1 with
      | push hp =>
        obtain ⟨mid, rs', h3, h4, h5⟩ := ih h2
        refine ⟨mid, rs', ?_, by rw [h4]; rfl, h5⟩
        exact h3.trans ((List.Perm.append_left xs hp).trans List.perm_middle)

theorem bagRun_pops {cmp : α → α → Int} : ∀ (n : Nat) {bag : List α} {rs : List (Option α)} {bag' : List α}, bag.length = n →
    BagRun (First cmp) bag (List.replicate n .pop) rs bag' → ∃ ys : List α, rs = ys.map some ∧ ys.Perm bag ∧ bag' = [] ∧
      ys.Pairwise fun a b => ¬ Before cmp b a := by
  intro n
  induction n with
  | zero =>
    intro bag rs bag' hl h
    cases h
    exact ⟨[], rfl, by rw [List.length_eq_zero_iff.mp hl], List.length_eq_zero_iff.mp hl, List.Pairwise.nil⟩
  | succ n ih =>
    intro bag rs bag' hl h
    rw [List.replicate_succ] at h
    cases h with
    | cons h1 h2 =>
      cases h1 with
      | popNone => simp at hl
      | pop hp hf =>
        rename_i m
        have hlen := hp.length_eq
        simp only [List.length_cons] at hlen
        obtain ⟨ys, e1, e2, e3, e4⟩ := ih (by omega) h2
        refine ⟨m :: ys, by rw [e1]; rfl, (List.Perm.cons m e2).trans hp.symm, e3, ?_⟩
        rw [List.pairwise_cons]
        exact ⟨fun y hy => hf y (hp.symm.subset (List.mem_cons_of_mem _ (e2.subset hy))), e4⟩

/-- **C85.** Putting items in and taking them all out sorts them. -/
theorem C85_sorts (cmp : α → α → Int) (ho : Orders cmp) (xs : List α) :
    ∃ (rs : List (HRet α)) (ys : List α), heapRun cmp [] (xs.map HOp.push ++ List.replicate xs.length .pop) = ok ([], rs) ∧
      rs.map Prod.fst = xs.map (fun _ => none) ++ ys.map some ∧ ys.Perm xs ∧ ys.Pairwise fun a b => ¬ Before cmp b a := by
  obtain ⟨v, rs, h1, h2⟩ := C85_first cmp ho (xs.map HOp.push ++ List.replicate xs.length .pop)
  obtain ⟨mid, rs', h3, h4, h5⟩ := bagRun_pushes xs h2
  rw [List.append_nil] at h3
  obtain ⟨ys, e1, e2, e3, e4⟩ := bagRun_pops xs.length h3.length_eq h5
  subst e3
  exact ⟨rs, ys, h1, by rw [h4, e1], e2.trans h3, e4⟩

/-- **C85.** `heap_get` gives the items of a heap that is not empty, and NULL beyond them. -/
theorem C85_get (v : List α) (i : Nat) (h : v ≠ []) (hl : v.length < 2 ^ 64) : heapGet v i = ok v[i]? := by
  have hpos : 0 < v.length := List.length_pos_iff.mpr h
  unfold heapGet
  rw [show (v.length + 2 ^ 64 - 1) % 2 ^ 64 = v.length - 1 from by omega]
  by_cases hi : i > v.length - 1
  · rw [if_pos hi, List.getElem?_eq_none (by omega)]
  · rw [if_neg hi]
    obtain ⟨x, hx, hv⟩ := vAt_lt (v := v) (i := i) (by omega)
    rw [hv, ok_bind, hx]

/-- A case of `C85_get`: inside and outside. -/
example : heapGet [5, 6] 1 = ok (some 6) ∧ heapGet [5, 6] 2 = ok none := ⟨C85_get [5, 6] 1 (by decide) (by decide), C85_get [5, 6] 2 (by decide) (by decide)⟩

/-- **C85** (violated for `heap_get`): on an empty heap every position up to 2^64 - 1 passes the test and is read. -/
theorem C85_get_violated (i : Nat) (hi : i < 2 ^ 64) : heapGet ([] : List α) i = ub := by
  unfold heapGet
  rw [show (([] : List α).length + 2 ^ 64 - 1) % 2 ^ 64 = 2 ^ 64 - 1 from by simp, if_neg (by omega)]
  simp [vAt]

/-! ## Examples -/

/-- Numbers in their order. -/
def natCmp (a b : Nat) : Int := (a : Int) - b

example : Orders natCmp := ⟨fun a b h => by simp only [Before, natCmp] at *; omega, fun a b c h1 h2 => by simp only [Before, natCmp] at *; omega⟩

example : (heapRun natCmp [] [.push 5, .push 2, .push 9, .push 2, .peek, .replace 7, .pop, .pop, .pop, .pop, .pop, .replace 1]).bind
    (fun r => ok (r.1, r.2.map Prod.fst)) =
    ok ([], [none, none, none, none, some 2, some 2, some 2, some 5, some 7, some 9, none, none]) := by decide +kernel

end Wdns
