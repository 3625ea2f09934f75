import Verif.Model.List

/-!
# C98: doubly-linked lists
-/

namespace Wdns
open Outcome

namespace Spec

/-- The pointer to the first element of a sequence, or `q` if it is empty. -/
def first (l : List Nat) (q : LPtr) : LPtr := match l with | [] => q | x :: _ => .elt x

/-- The pointer to the last element of a sequence, or `p` if it is empty. -/
def last (p : LPtr) : List Nat → LPtr
  | [] => p
  | x :: l => last (.elt x) l

/-- The elements of `l` are linked to one another in this order; the first one's `prev` is `p`, the last one's `next` is `q`. -/
def Chained (mem : Nat → LLink) (p : LPtr) : List Nat → LPtr → Prop
  | [], _ => True
  | x :: l, q => mem x = ⟨p, first l q⟩ ∧ Chained mem (.elt x) l q

/-- The lists hold these sequences: no element occurs twice, links and ends are right in both directions, and an element that is in no list is marked so. -/
structure Lists (s : LState) (L : Nat → List Nat) : Prop where
  nodup : ∀ k, (L k).Nodup
  apart : ∀ k j x, x ∈ L k → x ∈ L j → k = j
  chain : ∀ k, Chained s.mem .null (L k) .null
  ends : ∀ k, s.lists k = ⟨first (L k) .null, last .null (L k)⟩
  free : ∀ x, (∀ k, x ∉ L k) → s.mem x = ⟨.bad, .bad⟩

/-- The lists with one of them changed. -/
def put (L : Nat → List Nat) (k : Nat) (l : List Nat) : Nat → List Nat := fun j => if j = k then l else L j

end Spec

open Spec

theorem chained_congr {mem mem' : Nat → LLink} : ∀ {l : List Nat} {p q : LPtr}, (∀ x ∈ l, mem' x = mem x) → Chained mem p l q → Chained mem' p l q
  | [], _, _, _, _ => trivial
  | x :: l, _, _, h, hc => ⟨by rw [h x (by simp)]; exact hc.1, chained_congr (fun y hy => h y (by simp [hy])) hc.2⟩

theorem chained_append {mem : Nat → LLink} : ∀ {a b : List Nat} {p q : LPtr},
    Chained mem p (a ++ b) q ↔ Chained mem p a (first b q) ∧ Chained mem (last p a) b q
  | [], _, _, _ => by simp [Chained, last]
  | x :: a, b, p, q => by
    simp only [List.cons_append, Chained, last, chained_append (a := a)]
    have : first (a ++ b) q = first a (first b q) := by cases a <;> rfl
    rw [this, and_assoc]

theorem first_append (a b : List Nat) (q : LPtr) : first (a ++ b) q = first a (first b q) := by cases a <;> rfl

theorem last_append : ∀ (a b : List Nat) (p : LPtr), last p (a ++ b) = last (last p a) b
  | [], _, _ => rfl
  | _ :: a, b, _ => last_append a b _

theorem last_cons_ne (x : Nat) (l : List Nat) (p : LPtr) : last p (x :: l) ≠ .null ∧ last p (x :: l) ≠ .bad := by
  induction l generalizing x p with
  | nil => simp [last]
  | cons y l ih => exact ih y (.elt x)

/-- The last element of a chain, exposed. -/
theorem list_snoc {l : List Nat} (h : l ≠ []) : ∃ a x, l = a ++ [x] := ⟨l.dropLast, l.getLast h, (List.dropLast_concat_getLast h).symm⟩

/-- If a step changes only list `k`, and in the memory only elements that are in the old or the new sequence of `k`, the others stay as they are. -/
theorem lists_put {s s' : LState} {L : Nat → List Nat} {k : Nat} {l : List Nat} (h : Lists s L)
    (hn : l.Nodup) (hap : ∀ x ∈ l, ∀ j, j ≠ k → x ∉ L j) (hc : Chained s'.mem .null l .null)
    (he : s'.lists = fun j => if j = k then ⟨first l .null, last .null l⟩ else s.lists j)
    (hm : ∀ x, x ∉ l → x ∉ L k → s'.mem x = s.mem x) (hf : ∀ x ∈ L k, x ∉ l → s'.mem x = ⟨.bad, .bad⟩) : Lists s' (put L k l) := by
  constructor
  · intro j; unfold put; split
    · exact hn
    · exact h.nodup j
  · intro i j x hi hj
    unfold put at hi hj
    split at hi <;> split at hj
    · omega
    · rename_i h1 h2; exact absurd hj (hap x hi j h2)
    · rename_i h1 h2; exact absurd hi (hap x hj i h1)
    · exact h.apart i j x hi hj
  · intro j; unfold put; split
    · exact hc
    · rename_i hj
      refine chained_congr ?_ (h.chain j)
      intro x hx
      apply hm
      · intro hl; exact hap x hl j hj hx
      · intro hl; exact hj (h.apart j k x hx hl)
  · intro j
    rw [he]
    dsimp only
    unfold put
    by_cases hj : j = k
    · subst hj; rw [if_pos rfl, if_pos rfl]
    · rw [if_neg hj, if_neg hj]; exact h.ends j
  · intro x hx
    have hxl : x ∉ l := by have := hx k; unfold put at this; rwa [if_pos rfl] at this
    by_cases hk : x ∈ L k
    · exact hf x hk hxl
    · rw [hm x hxl hk]
      apply h.free
      intro j
      by_cases hj : j = k
      · subst hj; exact hk
      · have := hx j; unfold put at this; rwa [if_neg hj] at this

/-- The memory after `x` has been put between `a` and `b`. -/
def spliceMem (mem : Nat → LLink) (a : List Nat) (x : Nat) (b : List Nat) : Nat → LLink := fun m =>
  if m = x then ⟨last .null a, first b .null⟩
  else if LPtr.elt m = last .null a then ⟨(mem m).prev, .elt x⟩
  else if LPtr.elt m = first b .null then ⟨.elt x, (mem m).next⟩
  else mem m

/-- The state after `x` has been put between `a` and `b` in list `k`. -/
def splice (s : LState) (k : Nat) (a : List Nat) (x : Nat) (b : List Nat) : LState :=
  ⟨spliceMem s.mem a x b, fun j => if j = k then ⟨first a (.elt x), last (.elt x) b⟩ else s.lists j⟩

theorem last_mem : ∀ {a : List Nat} {u : Nat}, last .null a = .elt u → u ∈ a := by
  intro a u h
  by_cases ha : a = []
  · subst ha; cases h
  · obtain ⟨b, y, rfl⟩ := list_snoc ha
    rw [last_append] at h
    cases h
    simp

theorem first_mem {b : List Nat} {u : Nat} (h : first b .null = .elt u) : u ∈ b := by
  cases b with
  | nil => cases h
  | cons y b => cases h; simp

theorem chain_splice {mem : Nat → LLink} {a b : List Nat} {x : Nat} (hc : Chained mem .null (a ++ b) .null) (hn : (a ++ b).Nodup) (hx : x ∉ a ++ b) :
    Chained (spliceMem mem a x b) .null (a ++ x :: b) .null := by
  rw [List.mem_append, not_or] at hx
  rw [List.nodup_append] at hn
  obtain ⟨hna, hnb, hab⟩ := hn
  rw [chained_append] at hc ⊢
  refine ⟨?_, ⟨by simp [spliceMem], ?_⟩⟩
  · by_cases ha : a = []
    · subst ha; trivial
    · obtain ⟨a', u, rfl⟩ := list_snoc ha
      rw [chained_append] at hc ⊢
      have hu : u ∉ a' := by
        have := List.nodup_append.mp hna
        intro hm; exact this.2.2 u hm u (by simp) rfl
      refine ⟨?_, ?_, trivial⟩
      · refine chained_congr ?_ hc.1.1
        intro y hy
        unfold spliceMem
        rw [if_neg (by rintro rfl; exact hx.1 (by simp [hy])), if_neg, if_neg]
        · intro h; exact hab y (by simp [hy]) y (first_mem h.symm) rfl
        · rw [last_append]; intro h; cases h; exact hu hy
      · have := hc.1.2.1
        unfold spliceMem
        rw [if_neg (by rintro rfl; exact hx.1 (by simp)), if_pos (by rw [last_append]; rfl), this]
        rfl
  · cases b with
    | nil => trivial
    | cons v b' =>
      have hv : v ∉ b' := (List.nodup_cons.mp hnb).1
      refine ⟨?_, ?_⟩
      · have := hc.2.1
        unfold spliceMem
        rw [if_neg (by rintro rfl; exact hx.2 (by simp)), if_neg, if_pos (show LPtr.elt v = first (v :: b') .null from rfl), this]
        intro h; exact hab v (last_mem h.symm) v (by simp) rfl
      · refine chained_congr ?_ hc.2.2
        intro y hy
        unfold spliceMem
        rw [if_neg (by rintro rfl; exact hx.2 (by simp [hy])), if_neg, if_neg]
        · intro h; cases h; exact hv hy
        · intro h; exact hab y (last_mem h.symm) y (by simp [hy]) rfl

theorem lists_splice {s : LState} {L : Nat → List Nat} (h : Lists s L) {k x : Nat} {a b : List Nat} (hk : L k = a ++ b) (hx : ∀ j, x ∉ L j) :
    Lists (splice s k a x b) (put L k (a ++ x :: b)) := by
  have hxk := hx k
  rw [hk] at hxk
  have hn := h.nodup k
  rw [hk] at hn
  have hch := h.chain k
  rw [hk] at hch
  have mem_iff : ∀ y, y ∈ a ++ x :: b ↔ y = x ∨ y ∈ a ++ b := by
    intro y; simp only [List.mem_append, List.mem_cons]; exact or_left_comm
  apply lists_put h
  · rw [List.nodup_append] at hn ⊢
    simp only [List.mem_append, not_or] at hxk
    refine ⟨hn.1, List.nodup_cons.mpr ⟨hxk.2, hn.2.1⟩, ?_⟩
    intro u hu v hv
    rcases List.mem_cons.mp hv with rfl | hv
    · rintro rfl; exact hxk.1 hu
    · exact hn.2.2 u hu v hv
  · intro y hy j hj
    rw [mem_iff] at hy
    rcases hy with rfl | hy
    · exact hx j
    · intro hm; exact hj (h.apart j k y hm (by rw [hk]; exact hy))
  · exact chain_splice hch hn hxk
  · funext j
    unfold splice
    dsimp only
    rw [first_append, last_append]
    rfl
  · intro y h1 h2
    rw [mem_iff, not_or] at h1
    show spliceMem _ _ _ _ _ = _
    unfold spliceMem
    rw [if_neg h1.1, if_neg, if_neg]
    · intro e; exact h1.2 (List.mem_append.mpr (Or.inr (first_mem e.symm)))
    · intro e; exact h1.2 (List.mem_append.mpr (Or.inl (last_mem e.symm)))
  · intro y h1 h2
    rw [hk] at h1
    exact absurd ((mem_iff y).mpr (Or.inr h1)) h2

/-- Prepending an element that is in no list. -/
theorem C98_prepend {s : LState} {L : Nat → List Nat} (h : Lists s L) (k x : Nat) (hx : ∀ j, x ∉ L j) :
    ∃ s', lPrepend s k x = ok s' ∧ Lists s' (put L k (x :: L k)) := by
  refine ⟨_, ?_, lists_splice h (a := []) (b := L k) rfl hx⟩
  have hend := h.ends k
  have hxk := hx k
  cases hl : L k with
  | nil =>
    rw [hl] at hend
    simp only [lPrepend, lPrependHead, hend, first, last, setPrev, setNext, setHead, setTail, ok_bind, splice, ok.injEq, LState.mk.injEq, ne_eq,
      not_true_eq_false, if_false]
    constructor
    · funext m; unfold spliceMem; by_cases hm : m = x <;> simp [hm, last, first]
    · funext j; by_cases hj : j = k <;> simp [hj]
  | cons y t =>
    rw [hl] at hend hxk
    have hyx : ¬ y = x := by rintro rfl; simp at hxk
    simp only [lPrepend, lPrependHead, hend, first, setPrev, setNext, setHead, ok_bind, splice, ne_eq, reduceCtorEq, not_false_eq_true, if_true, ok.injEq,
      LState.mk.injEq]
    constructor
    · funext m
      unfold spliceMem
      by_cases hm : m = x
      · simp [hm, last, first]
      · by_cases hy : m = y
        · subst hy; simp [hm, last, first]
        · simp [hm, hy, last, first]
    · funext j; by_cases hj : j = k <;> simp [hj, first, last]

/-- Appending an element that is in no list. -/
theorem C98_append {s : LState} {L : Nat → List Nat} (h : Lists s L) (k x : Nat) (hx : ∀ j, x ∉ L j) :
    ∃ s', lAppend s k x = ok s' ∧ Lists s' (put L k (L k ++ [x])) := by
  refine ⟨_, ?_, lists_splice h (a := L k) (b := []) (by simp) hx⟩
  have hend := h.ends k
  have hxk := hx k
  by_cases hl : L k = []
  · rw [hl] at hend ⊢
    simp only [lAppend, lAppendTail, hend, first, last, setPrev, setNext, setHead, setTail, ok_bind, splice, ok.injEq, LState.mk.injEq, ne_eq,
      not_true_eq_false, if_false]
    constructor
    · funext m; unfold spliceMem; by_cases hm : m = x <;> simp [hm, last, first]
    · funext j; by_cases hj : j = k <;> simp [hj]
  · obtain ⟨t, y, hty⟩ := list_snoc hl
    rw [hty] at hend hxk ⊢
    have hyx : ¬ y = x := by rintro rfl; simp at hxk
    have hlast : last .null (t ++ [y]) = .elt y := by rw [last_append]; rfl
    rw [hlast] at hend
    simp only [lAppend, lAppendTail, hend, setPrev, setNext, setTail, ok_bind, splice, ne_eq, reduceCtorEq, not_false_eq_true, if_true, ok.injEq,
      LState.mk.injEq]
    constructor
    · funext m
      unfold spliceMem
      rw [hlast]
      by_cases hm : m = x
      · simp [hm, first]
      · by_cases hy : m = y
        · subst hy; simp [hm]
        · simp [hm, hy, first]
    · funext j
      have : first (t ++ [y]) (.elt x) = first (t ++ [y]) .null := by cases t <;> rfl
      by_cases hj : j = k <;> simp [hj, this, last]

theorem mem_prev {s : LState} {L : Nat → List Nat} (h : Lists s L) {k x : Nat} {a b : List Nat} (hk : L k = a ++ x :: b) :
    s.mem x = ⟨last .null a, first b .null⟩ := by
  have hch := h.chain k
  rw [hk, chained_append] at hch
  exact hch.2.1

/-- Inserting an element that is in no list in front of one that is in list `k`. -/
theorem C98_insert_before {s : LState} {L : Nat → List Nat} (h : Lists s L) (k v x : Nat) {a b : List Nat} (hk : L k = a ++ v :: b) (hx : ∀ j, x ∉ L j) :
    ∃ s', lInsertBefore s k v x = ok s' ∧ Lists s' (put L k (a ++ x :: v :: b)) := by
  have hv := mem_prev h hk
  by_cases ha : a = []
  · subst ha
    unfold lInsertBefore
    rw [hv]
    dsimp only
    rw [if_pos (show last .null [] = LPtr.null from rfl)]
    obtain ⟨s', h1, h2⟩ := C98_prepend h k x hx
    rw [hk] at h2
    exact ⟨s', h1, h2⟩
  · refine ⟨_, ?_, lists_splice h (a := a) (b := v :: b) hk hx⟩
    have hxk := hx k
    have hn := h.nodup k
    have hend := h.ends k
    obtain ⟨a', u, rfl⟩ := list_snoc ha
    rw [hk] at hxk hn hend
    have hlast : last .null (a' ++ [u]) = .elt u := by rw [last_append]; rfl
    have hux : ¬ u = x := by rintro rfl; simp at hxk
    have hvx : ¬ v = x := by rintro rfl; simp at hxk
    have hxv : ¬ x = v := fun e => hvx e.symm
    have hxu : ¬ x = u := fun e => hux e.symm
    have huv : ¬ u = v := by
      rintro rfl
      simp [List.nodup_append] at hn
    rw [hlast] at hv
    simp only [lInsertBefore, hv, setPrev, setNext, ok_bind, splice, reduceCtorEq, if_false, hvx, hxv, if_true, ok.injEq, LState.mk.injEq]
    constructor
    · funext m
      unfold spliceMem
      rw [hlast]
      by_cases hm : m = x
      · simp [hm, first, hxv, hxu]
      · by_cases hy : m = u
        · subst hy; simp [hm, huv, first]
        · by_cases hy' : m = v
          · subst hy'; simp [hm, hy, first, hv]
          · simp [hm, hy, hy', first]
    · funext j
      by_cases hj : j = k
      · subst hj
        rw [if_pos rfl, hend]
        congr 1
        · cases a' <;> rfl
        · rw [last_append]; rfl
      · rw [if_neg hj]

/-- Inserting an element that is in no list behind one that is in list `k`. -/
theorem C98_insert_after {s : LState} {L : Nat → List Nat} (h : Lists s L) (k u x : Nat) {a b : List Nat} (hk : L k = a ++ u :: b) (hx : ∀ j, x ∉ L j) :
    ∃ s', lInsertAfter s k u x = ok s' ∧ Lists s' (put L k (a ++ u :: x :: b)) := by
  have hv := mem_prev h hk
  cases b with
  | nil =>
    unfold lInsertAfter
    rw [hv]
    dsimp only
    rw [if_pos (show first [] .null = LPtr.null from rfl)]
    obtain ⟨s', h1, h2⟩ := C98_append h k x hx
    rw [hk] at h2
    exact ⟨s', h1, by simpa using h2⟩
  | cons v b =>
    have hk' : L k = (a ++ [u]) ++ v :: b := by rw [hk]; simp
    have key := lists_splice h (a := a ++ [u]) (b := v :: b) hk' hx
    rw [show (a ++ [u]) ++ x :: v :: b = a ++ u :: x :: v :: b by simp] at key
    refine ⟨_, ?_, key⟩
    have hxk := hx k
    have hn := h.nodup k
    have hend := h.ends k
    rw [hk] at hxk hn
    rw [hk'] at hend
    have hlast : last .null (a ++ [u]) = .elt u := by rw [last_append]; rfl
    have hux : ¬ u = x := by rintro rfl; simp at hxk
    have hvx : ¬ v = x := by rintro rfl; simp at hxk
    have hxv : ¬ x = v := fun e => hvx e.symm
    have hxu : ¬ x = u := fun e => hux e.symm
    have huv : ¬ u = v := by
      rintro rfl
      simp [List.nodup_append] at hn
    simp only [lInsertAfter, hv, first, setPrev, setNext, ok_bind, splice, reduceCtorEq, if_false, hux, hxu, if_true, ok.injEq, LState.mk.injEq]
    constructor
    · funext m
      unfold spliceMem
      rw [hlast]
      by_cases hm : m = x
      · simp [hm, first, hxv, hxu]
      · by_cases hy : m = u
        · subst hy; simp [hm, huv, hv]
        · by_cases hy' : m = v
          · subst hy'; simp [hm, hy, first]
          · simp [hm, hy, hy', first]
    · funext j
      by_cases hj : j = k
      · subst hj
        rw [if_pos rfl, hend]
        congr 1
        · cases a <;> rfl
        · rw [last_append]; rfl
      · rw [if_neg hj]

/-- The state after `x` has been taken out from between `a` and `b` in list `k`. -/
def unsplice (s : LState) (k : Nat) (a : List Nat) (x : Nat) (b : List Nat) : LState :=
  ⟨fun m => if m = x then ⟨.bad, .bad⟩
      else if LPtr.elt m = last .null a then ⟨(s.mem m).prev, first b .null⟩
      else if LPtr.elt m = first b .null then ⟨last .null a, (s.mem m).next⟩
      else s.mem m,
    fun j => if j = k then ⟨first (a ++ b) .null, last .null (a ++ b)⟩ else s.lists j⟩

theorem lists_unsplice {s : LState} {L : Nat → List Nat} (h : Lists s L) {k x : Nat} {a b : List Nat} (hk : L k = a ++ x :: b) :
    Lists (unsplice s k a x b) (put L k (a ++ b)) := by
  have hn := h.nodup k
  have hc := h.chain k
  rw [hk] at hn hc
  have hn' := hn
  rw [List.nodup_append] at hn
  obtain ⟨hna, hnb, hab⟩ := hn
  have hxb := (List.nodup_cons.mp hnb).1
  have hxa : x ∉ a := fun hm => hab x hm x (by simp) rfl
  have hab' : ∀ y, y ∈ a → y ∉ b := fun y h1 h2 => hab y h1 y (by simp [h2]) rfl
  have mem_iff : ∀ y, y ∈ L k ↔ y = x ∨ y ∈ a ++ b := by
    intro y; rw [hk]; simp only [List.mem_append, List.mem_cons]; exact or_left_comm
  apply lists_put h
  · rw [List.nodup_append]
    exact ⟨hna, (List.nodup_cons.mp hnb).2, fun u hu v hv => by rintro rfl; exact hab' u hu hv⟩
  · intro y hy j hj hm
    exact hj (h.apart j k y hm ((mem_iff y).mpr (Or.inr hy)))
  · rw [chained_append] at hc ⊢
    obtain ⟨c1, -, c2⟩ := hc
    constructor
    · by_cases ha : a = []
      · subst ha; trivial
      · obtain ⟨a', u, rfl⟩ := list_snoc ha
        rw [chained_append] at c1 ⊢
        have hu : u ∉ a' := by
          have := List.nodup_append.mp hna
          intro hm; exact this.2.2 u hm u (by simp) rfl
        have hlast : last .null (a' ++ [u]) = .elt u := by rw [last_append]; rfl
        refine ⟨chained_congr ?_ c1.1, ?_, trivial⟩
        · intro y hy
          unfold unsplice
          dsimp only
          rw [if_neg (by rintro rfl; exact hxa (by simp [hy])), if_neg, if_neg]
          · intro e; exact hab' y (by simp [hy]) (first_mem e.symm)
          · rw [hlast]; intro e; cases e; exact hu hy
        · have := c1.2.1
          unfold unsplice
          dsimp only
          rw [if_neg (by rintro rfl; exact hxa (by simp)), if_pos hlast.symm, this]
          rfl
    · cases b with
      | nil => trivial
      | cons v b' =>
        have hv : v ∉ b' := (List.nodup_cons.mp (List.nodup_cons.mp hnb).2).1
        refine ⟨?_, chained_congr ?_ c2.2⟩
        · have := c2.1
          unfold unsplice
          dsimp only
          rw [if_neg (by rintro rfl; exact hxb (by simp)), if_neg, if_pos (show LPtr.elt v = first (v :: b') .null from rfl), this]
          intro e; exact hab' v (last_mem e.symm) (by simp)
        · intro y hy
          unfold unsplice
          dsimp only
          rw [if_neg (by rintro rfl; exact hxb (by simp [hy])), if_neg, if_neg]
          · intro e; cases e; exact hv hy
          · intro e; exact hab' y (last_mem e.symm) (by simp [hy])
  · rfl
  · intro y h1 h2
    rw [mem_iff, not_or] at h2
    unfold unsplice
    dsimp only
    rw [if_neg h2.1, if_neg, if_neg]
    · intro e; exact h1 (List.mem_append.mpr (Or.inr (first_mem e.symm)))
    · intro e; exact h1 (List.mem_append.mpr (Or.inl (last_mem e.symm)))
  · intro y h1 h2
    rw [mem_iff] at h1
    rcases h1 with rfl | h1
    · unfold unsplice; simp
    · exact absurd h1 h2

/-- Taking an element out of its list. -/
theorem C98_unlink {s : LState} {L : Nat → List Nat} (h : Lists s L) (k x : Nat) {a b : List Nat} (hk : L k = a ++ x :: b) :
    ∃ s', lUnlink s k x = ok s' ∧ Lists s' (put L k (a ++ b)) := by
  refine ⟨_, ?_, lists_unsplice h hk⟩
  have hx := mem_prev h hk
  have hn := h.nodup k
  have hend := h.ends k
  rw [hk] at hn hend
  rw [List.nodup_append] at hn
  obtain ⟨hna, hnb, hab⟩ := hn
  by_cases ha : a = []
  · subst ha
    cases b with
    | nil =>
      simp only [lUnlink, lUnlinkNext, lUnlinkPrev, hx, first, last, setPrev, setNext, setHead, setTail, ok_bind, unsplice, ne_eq, not_true_eq_false,
        if_false, ok.injEq, LState.mk.injEq]
      constructor
      · funext m; by_cases hm : m = x <;> simp [hm]
      · funext j; by_cases hj : j = k <;> simp [hj, first, last]
    | cons v b =>
      have hvx : ¬ v = x := by rintro rfl; simp at hnb
      have hxv : ¬ x = v := fun e => hvx e.symm
      simp only [lUnlink, lUnlinkNext, lUnlinkPrev, hx, first, last, setPrev, setNext, setHead, ok_bind, unsplice, ne_eq, not_true_eq_false,
        reduceCtorEq, not_false_eq_true, if_true, if_false, hxv, ok.injEq, LState.mk.injEq]
      constructor
      · funext m
        by_cases hm : m = x
        · simp [hm]
        · by_cases hv : m = v <;> simp [hm, hv, hvx]
      · funext j
        by_cases hj : j = k
        · subst hj; simp [hend, first, last]
        · simp [hj]
  · obtain ⟨a', u, rfl⟩ := list_snoc ha
    have hlast : last .null (a' ++ [u]) = .elt u := by rw [last_append]; rfl
    have hux : ¬ u = x := by rintro rfl; exact hab u (by simp) u (by simp) rfl
    have hxu : ¬ x = u := fun e => hux e.symm
    rw [hlast] at hx
    cases b with
    | nil =>
      simp only [lUnlink, lUnlinkNext, lUnlinkPrev, hx, first, setPrev, setNext, setTail, ok_bind, unsplice, ne_eq, not_true_eq_false,
        reduceCtorEq, not_false_eq_true, if_true, if_false, hxu, hlast, ok.injEq, LState.mk.injEq]
      constructor
      · funext m
        by_cases hm : m = x
        · simp [hm]
        · by_cases hv : m = u <;> simp [hm, hv, hux]
      · funext j
        by_cases hj : j = k
        · subst hj
          simp only [if_true, hend, LHead.mk.injEq, List.append_nil, hlast, and_true]
          cases a' <;> rfl
        · simp [hj]
    | cons v b =>
      have hvx : ¬ v = x := by rintro rfl; simp at hnb
      have hxv : ¬ x = v := fun e => hvx e.symm
      have huv : ¬ u = v := by rintro rfl; exact hab u (by simp) u (by simp) rfl
      have hvu : ¬ v = u := fun e => huv e.symm
      simp only [lUnlink, lUnlinkNext, lUnlinkPrev, hx, first, setPrev, setNext, ok_bind, unsplice, ne_eq,
        reduceCtorEq, not_false_eq_true, if_true, if_false, hxu, hxv, hlast, ok.injEq, LState.mk.injEq]
      constructor
      · funext m
        by_cases hm : m = x
        · simp [hm]
        · by_cases hv : m = u
          · subst hv; simp [hm, huv]
          · by_cases hv' : m = v <;> simp [hm, hv, hv', hvx, hvu]
      · funext j
        by_cases hj : j = k
        · subst hj
          simp only [if_true, hend, LHead.mk.injEq]
          constructor
          · cases a' <;> rfl
          · rw [last_append, last_append (a' ++ [u]) (v :: b)]; rfl
        · simp [hj]

/-- A case of `C98_append` and `C98_unlink`: an item is put into an empty list and taken out again. -/
example (s : LState) (h : Lists s (fun _ => [])) : ∃ s1 s2, lAppend s 3 8 = ok s1 ∧ lUnlink s1 3 8 = ok s2 ∧ Lists s2 (fun _ => []) := by
  obtain ⟨s1, h1, l1⟩ := C98_append h 3 8 (by simp)
  obtain ⟨s2, h2, l2⟩ := C98_unlink (a := []) (b := []) l1 3 8 (by simp [put])
  refine ⟨s1, s2, h1, h2, ?_⟩
  rwa [show put (put (fun _ => ([] : List Nat)) 3 ([] ++ [8])) 3 ([] ++ []) = fun _ => [] by funext k; simp only [put]; split <;> rfl] at l2

theorem lists_join {s s' : LState} {L : Nat → List Nat} (h : Lists s L) {k j : Nat} (hkj : k ≠ j)
    (hc : Chained s'.mem .null (L k ++ L j) .null)
    (he : s'.lists = fun i => if i = j then ⟨.null, .null⟩ else if i = k then ⟨first (L k ++ L j) .null, last .null (L k ++ L j)⟩ else s.lists i)
    (hm : ∀ x, x ∉ L k ++ L j → s'.mem x = s.mem x) : Lists s' (put (put L k (L k ++ L j)) j []) := by
  have hput : ∀ i, put (put L k (L k ++ L j)) j [] i = if i = j then [] else if i = k then L k ++ L j else L i := fun i => rfl
  constructor
  · intro i; rw [hput]; split
    · simp
    · split
      · rw [List.nodup_append]
        exact ⟨h.nodup k, h.nodup j, fun x hx y hy e => hkj (h.apart k j x hx (by rw [e]; exact hy))⟩
      · exact h.nodup i
  · intro i i' x hi hi'
    rw [hput] at hi hi'
    split at hi
    · simp at hi
    · split at hi'
      · simp at hi'
      · rename_i n1 n2
        split at hi <;> split at hi'
        · omega
        · rename_i e1 e2
          rcases List.mem_append.mp hi with hx | hx
          · exact absurd (h.apart i' k x hi' hx) e2
          · exact absurd (h.apart i' j x hi' hx) n2
        · rename_i e1 e2
          rcases List.mem_append.mp hi' with hx | hx
          · exact absurd (h.apart i k x hi hx) e1
          · exact absurd (h.apart i j x hi hx) n1
        · exact h.apart i i' x hi hi'
  · intro i; rw [hput]; split
    · trivial
    · split
      · exact hc
      · rename_i n1 n2
        refine chained_congr ?_ (h.chain i)
        intro x hx
        apply hm
        rw [List.mem_append]
        rintro (h1 | h1)
        · exact n2 (h.apart i k x hx h1)
        · exact n1 (h.apart i j x hx h1)
  · intro i
    rw [he, hput]
    dsimp only
    by_cases h1 : i = j
    · rw [if_pos h1, if_pos h1]; rfl
    · rw [if_neg h1, if_neg h1]
      by_cases h2 : i = k
      · rw [if_pos h2, if_pos h2]
      · rw [if_neg h2, if_neg h2]; exact h.ends i
  · intro x hx
    have h1 : ∀ i, x ∉ L i := by
      intro i hi
      by_cases e1 : i = j
      · have := hx k; rw [hput, if_neg hkj, if_pos rfl] at this
        exact this (by rw [e1] at hi; simp [hi])
      · by_cases e2 : i = k
        · have := hx k; rw [hput, if_neg hkj, if_pos rfl] at this
          exact this (by rw [e2] at hi; simp [hi])
        · have := hx i; rw [hput, if_neg e1, if_neg e2] at this
          exact this hi
    rw [hm x (by rw [List.mem_append, not_or]; exact ⟨h1 k, h1 j⟩)]
    exact h.free x h1

/-- Moving all the elements of one list to the end of another. -/
theorem C98_append_list {s : LState} {L : Nat → List Nat} (h : Lists s L) (k j : Nat) (hkj : k ≠ j) :
    ∃ s', lAppendList s k j = ok s' ∧ Lists s' (put (put L k (L k ++ L j)) j []) := by
  have ek := h.ends k
  have ej := h.ends j
  have hjk : ¬ j = k := fun e => hkj e.symm
  by_cases hk : L k = []
  · have he : lEmpty s k = true := by simp [lEmpty, ek, hk, first]
    refine ⟨_, by simp only [lAppendList, lJoin, he, if_true, ok_bind]; rfl, ?_⟩
    apply lists_join h hkj
    · rw [hk]; exact h.chain j
    · funext i
      simp only [setHead, setTail]
      by_cases h1 : i = j
      · simp [h1]
      · by_cases h2 : i = k
        · subst h2; simp [h1, hk, ej]
        · simp [h1, h2]
    · intro x _; rfl
  · obtain ⟨a, u, hau⟩ := list_snoc hk
    have hlast : last .null (L k) = .elt u := by rw [hau, last_append]; rfl
    have hne : first (L k) .null ≠ .null := by
      cases hl : L k with
      | nil => exact absurd hl hk
      | cons y t => simp [first]
    have he : lEmpty s k = false := by simp [lEmpty, ek, hne]
    cases hj : L j with
    | nil =>
      have he' : lEmpty s j = true := by simp [lEmpty, ej, hj, first]
      refine ⟨_, by simp only [lAppendList, lJoin, he, he', if_false, not_true_eq_false, ok_bind, Bool.false_eq_true]; rfl, ?_⟩
      rw [show (L k ++ [] : List Nat) = L k ++ L j by rw [hj]]
      apply lists_join h hkj
      · rw [hj, List.append_nil]; exact h.chain k
      · funext i
        simp only [setHead, setTail]
        by_cases h1 : i = j
        · simp [h1]
        · by_cases h2 : i = k
          · subst h2; simp [h1, hj, ek]
          · simp [h1, h2]
      · intro x _; rfl
    | cons v b =>
      have he' : lEmpty s j = false := by simp [lEmpty, ej, hj, first]
      have hfirst : (s.lists j).head = .elt v := by rw [ej, hj]; rfl
      have htail : (s.lists k).tail = .elt u := by rw [ek]; exact hlast
      have huv : ¬ u = v := by
        rintro rfl
        exact hkj (h.apart k j u (by rw [hau]; simp) (by rw [hj]; simp))
      refine ⟨_, by
        simp only [lAppendList, lJoin, he, he', if_false, if_true, not_false_eq_true, setNext, setPrev, hfirst, htail, ok_bind, Bool.false_eq_true]
        rfl, ?_⟩
      rw [show (L k ++ v :: b : List Nat) = L k ++ L j by rw [hj]]
      apply lists_join h hkj
      · have ck := h.chain k
        have cj := h.chain j
        have nk := h.nodup k
        have nj := h.nodup j
        rw [hau] at ck nk
        rw [hj] at cj nj
        rw [chained_append] at ck
        have hua : u ∉ a := by
          have := List.nodup_append.mp nk
          intro hm; exact this.2.2 u hm u (by simp) rfl
        have hub : u ∉ b := fun hm => hkj (h.apart k j u (by rw [hau]; simp) (by rw [hj]; simp [hm]))
        have hva : v ∉ a := fun hm => hkj (h.apart k j v (by rw [hau]; simp [hm]) (by rw [hj]; simp))
        have hvb : v ∉ b := (List.nodup_cons.mp nj).1
        have hvu : ¬ v = u := fun e => huv e.symm
        rw [hau, hj, List.append_assoc, chained_append]
        refine ⟨chained_congr ?_ ck.1, ?_, ?_, chained_congr ?_ cj.2⟩
        · intro y hy
          have h1 : ¬ y = u := by rintro rfl; exact hua hy
          have h2 : ¬ y = v := by rintro rfl; exact hva hy
          simp [setTail, setHead, h1, h2]
        · have := ck.2.1
          simp only [setTail, setHead, huv, if_false, if_true, this]
          rfl
        · have := cj.1
          simp only [setTail, setHead, hvu, if_false, if_true, this]
        · intro y hy
          have h1 : ¬ y = u := by rintro rfl; exact hub hy
          have h2 : ¬ y = v := by rintro rfl; exact hvb hy
          simp [setTail, setHead, h1, h2]
      · funext i
        simp only [setHead, setTail]
        by_cases h1 : i = j
        · simp [h1]
        · by_cases h2 : i = k
          · subst h2
            simp only [h1, hjk, if_false, if_true, ek, ej, LHead.mk.injEq]
            rw [last_append, hlast, hj]
            refine ⟨?_, rfl⟩
            cases hl : L i with
            | nil => exact absurd hl hk
            | cons y t => rfl
          · simp [h1, h2]
      · intro x hx
        rw [List.mem_append, not_or, hau, hj] at hx
        have h1 : ¬ x = u := by rintro rfl; simp at hx
        have h2 : ¬ x = v := by rintro rfl; simp at hx
        simp [setHead, setTail, h1, h2]

/-- `ISC_LINK_LINKED` tells exactly the elements that are in a list. -/
theorem C98_linked {s : LState} {L : Nat → List Nat} (h : Lists s L) (x : Nat) : lLinked s x = true ↔ ∃ k, x ∈ L k := by
  constructor
  · intro hl
    by_cases hx : ∃ k, x ∈ L k
    · exact hx
    · have := h.free x (fun k hk => hx ⟨k, hk⟩)
      simp [lLinked, this] at hl
  · rintro ⟨k, hk⟩
    obtain ⟨a, b, hab⟩ := List.append_of_mem hk
    have := mem_prev h hab
    simp only [lLinked, this, ne_eq, decide_not, Bool.not_eq_eq_eq_not, Bool.not_true, decide_eq_false_iff_not]
    by_cases ha : a = []
    · subst ha; simp [last]
    · obtain ⟨a', u, rfl⟩ := list_snoc ha
      rw [last_append]; simp [last]

/-- `ISC_LIST_EMPTY` tells exactly the empty lists. -/
theorem C98_empty {s : LState} {L : Nat → List Nat} (h : Lists s L) (k : Nat) : lEmpty s k = true ↔ L k = [] := by
  simp only [lEmpty, h.ends k, decide_eq_true_eq]
  cases L k <;> simp [first]

/-- Following `next` for `n` steps at most. -/
def walkNext (s : LState) : Nat → LPtr → List Nat
  | n + 1, .elt x => x :: walkNext s n (s.mem x).next
  | _, _ => []

/-- Following `prev` for `n` steps at most. -/
def walkPrev (s : LState) : Nat → LPtr → List Nat
  | n + 1, .elt x => x :: walkPrev s n (s.mem x).prev
  | _, _ => []

theorem walkNext_chain {s : LState} : ∀ {l : List Nat} {p : LPtr} {n : Nat}, Chained s.mem p l .null → l.length ≤ n → walkNext s n (first l .null) = l
  | [], _, n, _, _ => by cases n <;> rfl
  | x :: l, _, 0, _, h => by simp at h
  | x :: l, _, n + 1, hc, h => by
    show x :: walkNext s n (s.mem x).next = x :: l
    rw [hc.1, walkNext_chain hc.2 (by simpa using h)]

theorem walkPrev_chain {s : LState} (a : List Nat) : ∀ {b : List Nat} {n : Nat}, Chained s.mem .null (a ++ b) .null → a.length ≤ n →
    walkPrev s n (last .null a) = a.reverse := by
  induction h : a.length generalizing a with
  | zero =>
    intro b n _ _
    rw [List.length_eq_zero_iff] at h
    subst h
    cases n <;> rfl
  | succ m ih =>
    intro b n hc hn
    obtain ⟨a', u, rfl⟩ := list_snoc (l := a) (by intro e; subst e; simp at h)
    cases n with
    | zero => omega
    | succ n =>
      have hu : last .null (a' ++ [u]) = .elt u := by rw [last_append]; rfl
      rw [hu]
      show u :: walkPrev s n (s.mem u).prev = _
      have hc' := hc
      rw [List.append_assoc, chained_append] at hc'
      rw [show (s.mem u).prev = last .null a' by rw [hc'.2.1],
        ih a' (by simpa using h) (b := u :: b) (by simpa using hc) (by omega)]
      simp

/-- Walking through a list in either direction gives its elements in order; there are no cycles. -/
theorem C98_walk {s : LState} {L : Nat → List Nat} (h : Lists s L) (k n : Nat) (hn : (L k).length ≤ n) :
    walkNext s n (s.lists k).head = L k ∧ walkPrev s n (s.lists k).tail = (L k).reverse := by
  rw [h.ends k]
  exact ⟨walkNext_chain (h.chain k) hn, walkPrev_chain (L k) (b := []) (by simpa using h.chain k) hn⟩

/-- All lists and all elements initialised. -/
theorem C98_init : Lists ⟨fun _ => ⟨.bad, .bad⟩, fun _ => ⟨.null, .null⟩⟩ (fun _ => []) := by
  constructor <;> simp [Chained, first, last]

/-- An operation, on the elements and on the sequences. -/
inductive LOp
  | prepend (k x : Nat)
  | append (k x : Nat)
  | before (k v x : Nat)
  | after (k u x : Nat)
  | unlink (k x : Nat)
  | join (k j : Nat)

/-- What the program does. -/
def LOp.run (s : LState) : LOp → Outcome LState
  | .prepend k x => lPrepend s k x
  | .append k x => lAppend s k x
  | .before k v x => lInsertBefore s k v x
  | .after k u x => lInsertAfter s k u x
  | .unlink k x => lUnlink s k x
  | .join k j => lAppendList s k j

/-- What it is to do: the change of the sequences, and when it may be asked for. -/
inductive LOp.Does (L : Nat → List Nat) : LOp → (Nat → List Nat) → Prop
  | prepend (k x : Nat) (hx : ∀ j, x ∉ L j) : Does L (.prepend k x) (put L k (x :: L k))
  | append (k x : Nat) (hx : ∀ j, x ∉ L j) : Does L (.append k x) (put L k (L k ++ [x]))
  | before (k v x : Nat) (a b : List Nat) (hx : ∀ j, x ∉ L j) (hk : L k = a ++ v :: b) : Does L (.before k v x) (put L k (a ++ x :: v :: b))
  | after (k u x : Nat) (a b : List Nat) (hx : ∀ j, x ∉ L j) (hk : L k = a ++ u :: b) : Does L (.after k u x) (put L k (a ++ u :: x :: b))
  | unlink (k x : Nat) (a b : List Nat) (hk : L k = a ++ x :: b) : Does L (.unlink k x) (put L k (a ++ b))
  | join (k j : Nat) (hkj : k ≠ j) : Does L (.join k j) (put (put L k (L k ++ L j)) j [])

/-- A history of permitted operations. -/
inductive LHist : (Nat → List Nat) → List LOp → (Nat → List Nat) → Prop
  | nil (L) : LHist L [] L
  | cons {L L' L''} {op : LOp} {ops} (h : op.Does L L') (t : LHist L' ops L'') : LHist L (op :: ops) L''

/-- Every history of permitted operations leaves the lists holding what they are to hold. -/
theorem C98_history {L L' : Nat → List Nat} {ops : List LOp} (hh : LHist L ops L') : ∀ {s : LState}, Lists s L →
    ∃ s', ops.foldlM LOp.run s = ok s' ∧ Lists s' L' := by
  induction hh with
  | nil L => intro s h; exact ⟨s, rfl, h⟩
  | @cons L L1 L2 op ops hd _ ih =>
    intro s h
    have one : ∃ s', LOp.run s op = ok s' ∧ Lists s' L1 := by
      cases hd with
      | prepend k x hx => exact C98_prepend h k x hx
      | append k x hx => exact C98_append h k x hx
      | before k v x a b hx hk => exact C98_insert_before h k v x hk hx
      | after k u x a b hx hk => exact C98_insert_after h k u x hk hx
      | unlink k x a b hk => exact C98_unlink h k x hk
      | join k j hkj => exact C98_append_list h k j hkj
    obtain ⟨s1, h1, h2⟩ := one
    obtain ⟨s2, h3, h4⟩ := ih h2
    exact ⟨s2, by rw [List.foldlM_cons, h1]; exact h3, h4⟩

/-- Without the condition: appending an element that is already at the end makes it its own predecessor, and appending a list to itself loses all its
elements; neither is noticed. -/
theorem C98_misuse_violated (s : LState) (k x : Nat) (L : Nat → List Nat) (h : Lists s L) (a : List Nat) (hk : L k = a ++ [x]) :
    (∃ s', lAppend s k x = ok s' ∧ (s'.mem x).prev = .elt x ∧ ∀ n, walkPrev s' n (s'.lists k).tail = List.replicate n x) ∧
    (∃ s', lAppendList s k k = ok s' ∧ lEmpty s' k = true) := by
  have ek := h.ends k
  rw [hk, last_append] at ek
  have ht : (s.lists k).tail = .elt x := by rw [ek]; rfl
  constructor
  · refine ⟨_, by simp only [lAppend, lAppendTail, ht, setNext, setPrev, ok_bind, ne_eq, reduceCtorEq, not_false_eq_true, if_true]; rfl, ?_, ?_⟩
    · simp [setTail]
    · intro n
      simp only [setTail, if_true]
      induction n with
      | zero => rfl
      | succ n ih =>
        rw [List.replicate_succ]
        show x :: walkPrev _ n _ = _
        simp only [if_true]
        rw [ih]
  · have hne : (s.lists k).head ≠ .null := by rw [ek, first_append]; cases a <;> simp [first]
    have he : lEmpty s k = false := by simp [lEmpty, hne]
    obtain ⟨y, hy⟩ : ∃ y, (s.lists k).head = .elt y := by
      rw [ek, first_append]; cases a <;> simp [first]
    refine ⟨_, by
      simp only [lAppendList, lJoin, he, if_false, if_true, not_false_eq_true, setNext, setPrev, hy, ht, ok_bind, Bool.false_eq_true]
      rfl, ?_⟩
    simp [lEmpty, setHead, setTail]

/-- A history with all six operations. -/
example : ∃ L, LHist (fun _ => []) [.append 0 5, .prepend 0 6, .before 0 5 7, .after 0 5 8, .append 1 9, .unlink 0 5, .join 0 1] L ∧
    L 0 = [6, 7, 8, 9] ∧ L 1 = [] := by
  refine ⟨_, .cons (.append 0 5 (by simp)) (.cons (.prepend 0 6 ?_) (.cons (.before 0 5 7 [6] [] ?_ rfl) (.cons (.after 0 5 8 [6, 7] [] ?_ rfl)
    (.cons (.append 1 9 ?_) (.cons (.unlink 0 5 [6, 7] [8] rfl) (.cons (.join 0 1 (by decide)) (.nil _))))))), rfl, rfl⟩
  all_goals (intro j; by_cases h0 : j = 0 <;> by_cases h1 : j = 1 <;> simp [put, h0, h1])

end Wdns
