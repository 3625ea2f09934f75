import Verif.Basic

/-!
# Model: the red-black trees of libmy/tree.h (lines 291-741)

The macros `RB_GENERATE` expands to, for elements at addresses that are natural numbers.  Memory gives for every address the `RB_ENTRY` of the element there, or
nothing if there is no element: reading or writing through such an address, or through NULL, is undefined.  The
comparison function is a parameter.  Many pieces of the code come as a left and a right version that are mirror images; they are written once with the side as a
parameter (`true` is left), after checking that the two texts differ in nothing else.  `RB_AUGMENT` is the default `(void)(x)`.
Loops have a budget of iterations; `hang` means that it was not enough.
-/

namespace Wdns
open Outcome

/-- `RB_ENTRY` — libmy/tree.h:306-312; `red` is `rbe_color == RB_RED`. -/
structure RbEnt where
  left : Option Nat
  right : Option Nat
  parent : Option Nat
  red : Bool
  deriving DecidableEq, Repr

/-- `RB_LEFT` or `RB_RIGHT` — libmy/tree.h:314-315. -/
def RbEnt.child (e : RbEnt) (d : Bool) : Option Nat := if d then e.left else e.right

/-- Assignment to `RB_LEFT` or `RB_RIGHT`. -/
def RbEnt.setChild (e : RbEnt) (d : Bool) (p : Option Nat) : RbEnt := if d then { e with left := p } else { e with right := p }

/-- The head (`RB_HEAD`, libmy/tree.h:292-295) and the elements in memory. -/
structure RbMem where
  root : Option Nat
  ent : Nat → Option RbEnt

/-- The entry behind a pointer that is dereferenced. -/
def RbMem.get (s : RbMem) : Option Nat → Outcome RbEnt
  | none => ub
  | some i => match s.ent i with
    | none => ub
    | some e => ok e

/-- An assignment to fields of the element behind a pointer. -/
def RbMem.mod (s : RbMem) (p : Option Nat) (f : RbEnt → RbEnt) : Outcome RbMem :=
  match p with
  | none => ub
  | some i => match s.ent i with
    | none => ub
    | some e => ok { s with ent := fun j => if j = i then some (f e) else s.ent j }

/-- `RB_COLOR(p) = ...` -/
def RbMem.setRed (s : RbMem) (p : Option Nat) (red : Bool) : Outcome RbMem := s.mod p fun e => { e with red := red }
/-- `RB_PARENT(p) = ...` -/
def RbMem.setParent (s : RbMem) (p q : Option Nat) : Outcome RbMem := s.mod p fun e => { e with parent := q }
/-- `RB_LEFT(p) = ...`, `RB_RIGHT(p) = ...` -/
def RbMem.setChild (s : RbMem) (p : Option Nat) (d : Bool) (q : Option Nat) : Outcome RbMem := s.mod p fun e => e.setChild d q

/-- `if (p) RB_PARENT(p) = q;` — e.g. libmy/tree.h:338-340, 540-541. -/
def RbMem.adopt (s : RbMem) (p q : Option Nat) : Outcome RbMem := if p ≠ none then s.setParent p q else ok s

/-- `if (p) RB_COLOR(p) = RB_BLACK;` — libmy/tree.h:469-471, 478-479, 502-504, 511-512, 519-520. -/
def RbMem.blacken (s : RbMem) (p : Option Nat) : Outcome RbMem := if p ≠ none then s.setRed p false else ok s

/-- The link to `elm` from its parent `q`, or from the head, now goes to `new` — libmy/tree.h:342-348, 361-367, 542-549, 553-560, 575-582. -/
def RbMem.relink (s : RbMem) (q elm new : Option Nat) : Outcome RbMem :=
  if q ≠ none then do
    let e ← s.get q
    if e.left = elm then s.setChild q true new else s.setChild q false new
  else ok { s with root := new }

/-- `RB_ROTATE_LEFT` (`d = true`) and `RB_ROTATE_RIGHT` — libmy/tree.h:336-373; the new `tmp` is returned too. -/
def RbMem.rotate (s : RbMem) (d : Bool) (elm : Option Nat) : Outcome (RbMem × Option Nat) := do
  let e ← s.get elm
  let tmp := e.child (!d)
  let t ← s.get tmp
  let b := t.child d
  let s ← s.setChild elm (!d) b
  let s ← s.adopt b elm
  let e ← s.get elm
  let s ← s.setParent tmp e.parent
  let s ← s.relink e.parent elm tmp
  let s ← s.setChild tmp d elm
  let s ← s.setParent elm tmp
  ok (s, tmp)

/-- `p && RB_COLOR(p) == RB_RED` — libmy/tree.h:411. -/
def RbMem.isRed (s : RbMem) (p : Option Nat) : Outcome Bool :=
  if p = none then ok false else do
    let e ← s.get p
    ok e.red

/-- `p == NULL || RB_COLOR(p) == RB_BLACK` — libmy/tree.h:449, 458-461. -/
def RbMem.isBlack (s : RbMem) (p : Option Nat) : Outcome Bool :=
  if p = none then ok true else do
    let e ← s.get p
    ok (!e.red)

/-- The step for an inner grandchild — libmy/tree.h:417-422, 433-438: the memory, `parent` and `elm`. -/
def rbInner (s : RbMem) (d : Bool) (parent elm : Option Nat) : Outcome (RbMem × Option Nat × Option Nat) := do
  let pe ← s.get parent
  if pe.child (!d) = elm then do
    let (s, _) ← s.rotate d parent
    ok (s, elm, parent)
  else ok (s, parent, elm)

/-- The body of the loop of `RB_INSERT_COLOR` for one side — libmy/tree.h:409-424 (`d = true`), 425-440: the memory and `elm`. -/
def rbInsertStep (s : RbMem) (d : Bool) (parent gparent elm : Option Nat) : Outcome (RbMem × Option Nat) := do
  let ge ← s.get gparent
  let tmp := ge.child (!d)
  let r ← s.isRed tmp
  if r then do
    let s ← s.setRed tmp false
    let s ← s.setRed parent false
    let s ← s.setRed gparent true
    ok (s, gparent)
  else do
    let (s, parent, elm) ← rbInner s d parent elm
    let s ← s.setRed parent false
    let s ← s.setRed gparent true
    let (s, _) ← s.rotate (!d) gparent
    ok (s, elm)

/-- The loop of `RB_INSERT_COLOR` — libmy/tree.h:405-441. -/
def rbInsertLoop : Nat → RbMem → Option Nat → Outcome RbMem
  | 0, _, _ => hang
  | fuel + 1, s, elm => do
    let e ← s.get elm
    if e.parent = none then ok s
    else do
      let pe ← s.get e.parent
      if pe.red = false then ok s
      else do
        let ge ← s.get pe.parent
        let (s, elm) ← rbInsertStep s (decide (e.parent = ge.left)) e.parent pe.parent elm
        rbInsertLoop fuel s elm

/-- `RB_INSERT_COLOR` — libmy/tree.h:401-443. -/
def rbInsertColor (fuel : Nat) (s : RbMem) (elm : Option Nat) : Outcome RbMem := do
  let s ← rbInsertLoop fuel s elm
  s.setRed s.root false

/-- The search of `RB_INSERT` — libmy/tree.h:598-607: the element found, or the last element seen and the last comparison. -/
def rbDescend (cmp : Nat → Nat → Int) (s : RbMem) (elm : Nat) : Nat → Option Nat → Option Nat → Int → Outcome (Option Nat × Option Nat × Int)
  | 0, _, _, _ => hang
  | fuel + 1, tmp, parent, comp =>
    match tmp with
    | none => ok (none, parent, comp)
    | some t => do
      let e ← s.get (some t)
      if cmp elm t < 0 then rbDescend cmp s elm fuel e.left (some t) (cmp elm t)
      else if cmp elm t > 0 then rbDescend cmp s elm fuel e.right (some t) (cmp elm t)
      else ok (some t, some t, 0)

/-- The link from the parent to a new element — libmy/tree.h:609-616. -/
def rbHang (s : RbMem) (parent : Option Nat) (comp : Int) (elm : Nat) : Outcome RbMem :=
  if parent ≠ none then
    if comp < 0 then s.setChild parent true (some elm) else s.setChild parent false (some elm)
  else ok { s with root := some elm }

/-- `RB_INSERT` — libmy/tree.h:590-619; `RB_SET` is 321-325. -/
def rbInsert (cmp : Nat → Nat → Int) (fuel : Nat) (s : RbMem) (elm : Nat) : Outcome (RbMem × Option Nat) := do
  let (found, parent, comp) ← rbDescend cmp s elm fuel s.root none 0
  if found ≠ none then ok (s, found)
  else do
    let s ← s.mod (some elm) fun _ => ⟨none, none, parent, true⟩
    let s ← rbHang s parent comp elm
    let s ← rbInsertColor fuel s (some elm)
    ok (s, none)

/-- A red sibling — libmy/tree.h:453-457, 486-490: the memory and `tmp`. -/
def rbRedSibling (s : RbMem) (d : Bool) (parent tmp : Option Nat) : Outcome (RbMem × Option Nat) := do
  let te ← s.get tmp
  if te.red then do
    let s ← s.setRed tmp false
    let s ← s.setRed parent true
    let (s, _) ← s.rotate d parent
    let pe ← s.get parent
    ok (s, pe.child (!d))
  else ok (s, tmp)

/-- Both children of `tmp` are black — libmy/tree.h:458-461, 491-494. -/
def rbBothBlack (s : RbMem) (te : RbEnt) : Outcome Bool := do
  let l ← s.isBlack te.left
  if l then s.isBlack te.right else ok false

/-- A sibling with a black outer child — libmy/tree.h:466-475, 499-508: the memory and `tmp`. -/
def rbOuter (s : RbMem) (d : Bool) (parent tmp : Option Nat) : Outcome (RbMem × Option Nat) := do
  let te ← s.get tmp
  let o ← s.isBlack (te.child (!d))
  if o then do
    let s ← s.blacken (te.child d)
    let s ← s.setRed tmp true
    let (s, _) ← s.rotate (!d) tmp
    let pe ← s.get parent
    ok (s, pe.child (!d))
  else ok (s, tmp)

/-- The last case — libmy/tree.h:466-482, 499-515, up to `break`. -/
def rbLast (s : RbMem) (d : Bool) (parent tmp : Option Nat) : Outcome RbMem := do
  let (s, tmp) ← rbOuter s d parent tmp
  let pe ← s.get parent
  let s ← s.setRed tmp pe.red
  let s ← s.setRed parent false
  let te ← s.get tmp
  let s ← s.blacken (te.child (!d))
  let (s, _) ← s.rotate d parent
  ok s

/-- The body of the loop of `RB_REMOVE_COLOR` for one side — libmy/tree.h:451-483 (`d = true`), 484-516: the memory, `parent`, `elm` and whether the
loop was left by `break`. -/
def rbRemoveStep (s : RbMem) (d : Bool) (parent : Option Nat) : Outcome (RbMem × Option Nat × Option Nat × Bool) := do
  let pe ← s.get parent
  let (s, tmp) ← rbRedSibling s d parent (pe.child (!d))
  let te ← s.get tmp
  let bb ← rbBothBlack s te
  if bb then do
    let s ← s.setRed tmp true
    let pe ← s.get parent
    ok (s, pe.parent, parent, false)
  else do
    let s ← rbLast s d parent tmp
    ok (s, parent, s.root, true)

/-- The loop of `RB_REMOVE_COLOR` — libmy/tree.h:449-517: the memory and `elm`. -/
def rbRemoveLoop : Nat → RbMem → Option Nat → Option Nat → Outcome (RbMem × Option Nat)
  | 0, _, _, _ => hang
  | fuel + 1, s, parent, elm => do
    let b ← s.isBlack elm
    if b ∧ elm ≠ s.root then do
      let pe ← s.get parent
      let (s, parent, elm, brk) ← rbRemoveStep s (decide (pe.left = elm)) parent
      if brk then ok (s, elm) else rbRemoveLoop fuel s parent elm
    else ok (s, elm)

/-- `RB_REMOVE_COLOR` — libmy/tree.h:446-521. -/
def rbRemoveColor (fuel : Nat) (s : RbMem) (parent elm : Option Nat) : Outcome RbMem := do
  let (s, elm) ← rbRemoveLoop fuel s parent elm
  s.blacken elm

/-- `while ((left = RB_LEFT(elm)) != NULL) elm = left;` — libmy/tree.h:535-536, 664-665, and the mirror image 687-688. -/
def rbEdge (s : RbMem) (d : Bool) : Nat → Option Nat → Outcome (Option Nat)
  | 0, _ => hang
  | fuel + 1, elm => do
    let e ← s.get elm
    if e.child d ≠ none then rbEdge s d fuel (e.child d) else ok elm

/-- The loop that calls `RB_AUGMENT` for an element (if there is one) and all its ancestors — libmy/tree.h:564-569. -/
def rbClimb (s : RbMem) : Nat → Option Nat → Outcome Unit
  | 0, _ => hang
  | fuel + 1, p =>
    if p ≠ none then do
      let e ← s.get p
      rbClimb s fuel e.parent
    else ok ()

/-- `RB_REMOVE` of an element with at most one child — libmy/tree.h:529-532, 572-583: the memory, `parent`, `child`, `color`. -/
def rbUnlink (s : RbMem) (elm child : Option Nat) : Outcome (RbMem × Option Nat × Option Nat × Bool) := do
  let e ← s.get elm
  let s ← s.adopt child e.parent
  let s ← s.relink e.parent elm child
  ok (s, e.parent, child, e.red)

/-- `RB_REMOVE` of an element with two children: its successor `elm` takes its place — libmy/tree.h:534-570: the memory, `parent`, `child`, `color`. -/
def rbReplace (fuel : Nat) (s : RbMem) (old : Option Nat) : Outcome (RbMem × Option Nat × Option Nat × Bool) := do
  let oe ← s.get old
  let elm ← rbEdge s true fuel oe.right
  let e ← s.get elm
  let child := e.right
  let parent := e.parent
  let color := e.red
  let s ← s.adopt child parent
  let s ← s.relink parent elm child
  let e ← s.get elm
  let parent := if e.parent = old then elm else parent
  let oe ← s.get old
  let s ← s.mod elm fun _ => oe
  let s ← s.relink oe.parent old elm
  let oe ← s.get old
  let s ← s.setParent oe.left elm
  let oe ← s.get old
  let s ← s.adopt oe.right elm
  rbClimb s fuel parent
  ok (s, parent, child, color)

/-- `RB_REMOVE` up to the label `color` — libmy/tree.h:529-583: the memory, `parent`, `child`, `color`. -/
def rbDetach (fuel : Nat) (s : RbMem) (old : Option Nat) : Outcome (RbMem × Option Nat × Option Nat × Bool) := do
  let oe ← s.get old
  if oe.left = none then rbUnlink s old oe.right
  else if oe.right = none then rbUnlink s old oe.left
  else rbReplace fuel s old

/-- `RB_REMOVE` — libmy/tree.h:523-587; it returns its argument. -/
def rbRemove (fuel : Nat) (s : RbMem) (old : Nat) : Outcome (RbMem × Nat) := do
  let (s, parent, child, color) ← rbDetach fuel s (some old)
  if color = false then do
    let s ← rbRemoveColor fuel s parent child
    ok (s, old)
  else ok (s, old)

/-- `RB_FIND` — libmy/tree.h:622-637. -/
def rbFind (cmp : Nat → Nat → Int) (s : RbMem) (elm : Nat) : Nat → Option Nat → Outcome (Option Nat)
  | 0, _ => hang
  | fuel + 1, tmp =>
    match tmp with
    | none => ok none
    | some t => do
      let e ← s.get (some t)
      if cmp elm t < 0 then rbFind cmp s elm fuel e.left
      else if cmp elm t > 0 then rbFind cmp s elm fuel e.right
      else ok (some t)

/-- `RB_NFIND` — libmy/tree.h:640-658. -/
def rbNfind (cmp : Nat → Nat → Int) (s : RbMem) (elm : Nat) : Nat → Option Nat → Option Nat → Outcome (Option Nat)
  | 0, _, _ => hang
  | fuel + 1, tmp, res =>
    match tmp with
    | none => ok res
    | some t => do
      let e ← s.get (some t)
      if cmp elm t < 0 then rbNfind cmp s elm fuel e.left (some t)
      else if cmp elm t > 0 then rbNfind cmp s elm fuel e.right res
      else ok (some t)

/-- `while (RB_PARENT(elm) && elm == RB_RIGHT(RB_PARENT(elm))) elm = RB_PARENT(elm);  elm = RB_PARENT(elm);` — libmy/tree.h:671-674 (`d = true`), and the mirror
image 694-697. -/
def rbUp (s : RbMem) (d : Bool) : Nat → Option Nat → Outcome (Option Nat)
  | 0, _ => hang
  | fuel + 1, elm => do
    let e ← s.get elm
    if e.parent ≠ none then do
      let pe ← s.get e.parent
      if elm = pe.child (!d) then rbUp s d fuel e.parent else ok e.parent
    else ok e.parent

/-- `RB_NEXT` (`d = true`) and `RB_PREV` — libmy/tree.h:660-702. -/
def rbNext (fuel : Nat) (s : RbMem) (d : Bool) (elm : Nat) : Outcome (Option Nat) := do
  let e ← s.get (some elm)
  if e.child (!d) ≠ none then rbEdge s d fuel (e.child (!d))
  else if e.parent ≠ none then do
    let pe ← s.get e.parent
    if some elm = pe.child d then ok e.parent else rbUp s d fuel (some elm)
  else rbUp s d fuel (some elm)

/-- `RB_MINMAX` — libmy/tree.h:704-716; `d = true` is `val < 0` (`RB_MIN`), otherwise `RB_MAX`. -/
def rbMinmax (s : RbMem) (d : Bool) : Nat → Option Nat → Option Nat → Outcome (Option Nat)
  | 0, _, _ => hang
  | fuel + 1, tmp, parent =>
    match tmp with
    | none => ok parent
    | some t => do
      let e ← s.get (some t)
      rbMinmax s d fuel (e.child d) (some t)

/-- The elements `RB_FOREACH` (`d = true`) or `RB_FOREACH_REVERSE` visits from `x` on — libmy/tree.h:731-739; at most `n` steps. -/
def rbVisit (fuel : Nat) (s : RbMem) (d : Bool) : Nat → Option Nat → Outcome (List Nat)
  | 0, _ => hang
  | n + 1, x =>
    match x with
    | none => ok []
    | some i => do
      let y ← rbNext fuel s d i
      let rest ← rbVisit fuel s d n y
      ok (i :: rest)

/-- `RB_FOREACH` (`d = true`) and `RB_FOREACH_REVERSE` — libmy/tree.h:731-739: the elements visited. -/
def rbForeach (fuel n : Nat) (s : RbMem) (d : Bool) : Outcome (List Nat) := do
  let x ← rbMinmax s d fuel s.root none
  rbVisit fuel s d n x

/-- A call that changes a tree. -/
inductive RbOp where
  | insert (i : Nat)
  | remove (i : Nat)
  deriving DecidableEq, Repr

/-- One call, with what it returns. -/
def rbStep (cmp : Nat → Nat → Int) (fuel : Nat) (s : RbMem) : RbOp → Outcome (RbMem × Option Nat)
  | .insert i => rbInsert cmp fuel s i
  | .remove i => do
    let (s, r) ← rbRemove fuel s i
    ok (s, some r)

/-- A series of calls, with what they return. -/
def rbRun (cmp : Nat → Nat → Int) (fuel : Nat) : List RbOp → RbMem → Outcome (RbMem × List (Option Nat))
  | [], s => ok (s, [])
  | op :: ops, s => do
    let (s, r) ← rbStep cmp fuel s op
    let (s, rs) ← rbRun cmp fuel ops s
    ok (s, r :: rs)

end Wdns
