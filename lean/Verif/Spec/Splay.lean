import Verif.Model.Splay
import Verif.Spec.RbTree

/-!
# Specification: what the calls of a splay tree do to an ordered set
-/

namespace Wdns.Spec

/-- What a call does to an ordered set and what it returns.  An insertion returns the equal member if there is one, and otherwise NULL.  A removal takes out the member that is
equal to its argument and returns the argument, or NULL if there is none.  `next` returns the first member above its argument, which has to be a member. -/
def splayStep (cmp : Nat → Nat → Int) (xs : List Nat) : SpOp → Option (List Nat × Option Nat)
  | .insert i =>
    match member cmp i xs with
    | some x => some (xs, some x)
    | none => some (xs.filter (fun x => 0 < cmp i x) ++ i :: xs.filter (fun x => cmp i x < 0), none)
  | .remove k =>
    match member cmp k xs with
    | some x => some (xs.erase x, some k)
    | none => some (xs, none)
  | .find k => some (xs, member cmp k xs)
  | .next i => if i ∈ xs then some (xs, xs.find? fun x => cmp i x < 0) else none
  | .min => some (xs, xs.head?)
  | .max => some (xs, xs.getLast?)

/-- A series of calls. -/
def splayRun (cmp : Nat → Nat → Int) : List SpOp → List Nat → Option (List Nat × List (Option Nat))
  | [], xs => some (xs, [])
  | op :: ops, xs => do
    let (ys, r) ← splayStep cmp xs op
    let (zs, rs) ← splayRun cmp ops ys
    some (zs, r :: rs)

end Wdns.Spec
