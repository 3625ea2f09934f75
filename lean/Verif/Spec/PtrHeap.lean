import Verif.Model.PtrHeap

/-!
# Specification: a priority queue

The contents are a bag (a list up to permutation).
-/

namespace Wdns.Spec

variable {α : Type}

/-- `a` goes before `b`. -/
def Before (cmp : α → α → Int) (a b : α) : Prop := cmp a b < 0

/-- The comparison function orders the items, ties allowed (a strict weak order). -/
structure Orders (cmp : α → α → Int) : Prop where
  asymm : ∀ a b, Before cmp a b → ¬ Before cmp b a
  trans : ∀ a b c, ¬ Before cmp b a → ¬ Before cmp c b → ¬ Before cmp c a

/-- One call on a bag: the items in it before, what is returned, the items after.  `best` says which items may be returned. -/
inductive BagStep (best : List α → α → Prop) : List α → HOp α → Option α → List α → Prop
  | push {bag bag' x} : bag'.Perm (x :: bag) → BagStep best bag (.push x) none bag'
  | popNone : BagStep best [] .pop none []
  | pop {bag bag' m} : bag.Perm (m :: bag') → best bag m → BagStep best bag .pop (some m) bag'
  | replaceNone {x} : BagStep best [] (.replace x) none []
  | replace {bag rest bag' m x} : bag.Perm (m :: rest) → bag'.Perm (x :: rest) → best bag m → BagStep best bag (.replace x) (some m) bag'
  | peekNone : BagStep best [] .peek none []
  | peek {bag bag' m} : bag'.Perm bag → m ∈ bag → best bag m → BagStep best bag .peek (some m) bag'

/-- A sequence of calls on a bag. -/
inductive BagRun (best : List α → α → Prop) : List α → List (HOp α) → List (Option α) → List α → Prop
  | nil {bag} : BagRun best bag [] [] bag
  | cons {bag bag' bag'' o r os rs} : BagStep best bag o r bag' → BagRun best bag' os rs bag'' → BagRun best bag (o :: os) (r :: rs) bag''

/-- Nothing in the bag goes before `m`. -/
def First (cmp : α → α → Int) (bag : List α) (m : α) : Prop := ∀ x ∈ bag, ¬ Before cmp x m

end Wdns.Spec
