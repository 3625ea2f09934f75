import Verif.Model.RbTree

/-!
# Specification: ordered sets
-/

namespace Wdns.Spec

/-- A comparison function that orders the elements; it may find different elements equal. -/
structure Compares (cmp : Nat → Nat → Int) : Prop where
  anti : ∀ a b, cmp a b < 0 ↔ 0 < cmp b a
  trans : ∀ a b c, cmp a b ≤ 0 → cmp b c ≤ 0 → cmp a c ≤ 0

/-- In strictly ascending order. -/
def Ascending (cmp : Nat → Nat → Int) (xs : List Nat) : Prop := xs.Pairwise fun a b => cmp a b < 0

/-- The member that is equal to `k` for the comparison function. -/
def member (cmp : Nat → Nat → Int) (k : Nat) (xs : List Nat) : Option Nat := xs.find? fun x => cmp k x = 0

/-- The first member that is not below `k`. -/
def notBelow (cmp : Nat → Nat → Int) (k : Nat) (xs : List Nat) : Option Nat := xs.find? fun x => cmp k x ≤ 0

/-- What a call does to an ordered set and what it returns: an insertion returns the equal member if there is one, and otherwise NULL; only members may be removed. -/
def setStep (cmp : Nat → Nat → Int) (xs : List Nat) : RbOp → Option (List Nat × Option Nat)
  | .insert i =>
    match member cmp i xs with
    | some x => some (xs, some x)
    | none => some (xs.filter (fun x => 0 < cmp i x) ++ i :: xs.filter (fun x => cmp i x < 0), none)
  | .remove i => if i ∈ xs then some (xs.erase i, some i) else none

/-- A series of calls. -/
def setRun (cmp : Nat → Nat → Int) : List RbOp → List Nat → Option (List Nat × List (Option Nat))
  | [], xs => some (xs, [])
  | op :: ops, xs => do
    let (ys, r) ← setStep cmp xs op
    let (zs, rs) ← setRun cmp ops ys
    some (zs, r :: rs)

/-- How often a loop of a call on a set of `n` elements may run. -/
def rbBound (n : Nat) : Nat := 2 * Nat.log2 (n + 1) + 2

end Wdns.Spec
