import Verif.Basic

/-!
# Model: the splay trees of libmy/tree.h (lines 58-289)

The macros `SPLAY_GENERATE` and `SPLAY_PROTOTYPE` expand to, for elements at addresses that are natural numbers.  Memory gives for every address the `SPLAY_ENTRY` of the
element there, or nothing if there is no element: reading or writing through such an address, or through NULL, is undefined.  The comparison function is a
parameter.  Code that comes as a left and a right version that are mirror images is written once with the side as a parameter (`true` is left).
Loops have a budget of iterations; `hang` means that it was not enough.
-/

namespace Wdns
open Outcome

/-- `SPLAY_ENTRY` — libmy/tree.h:70-74. -/
structure SpEnt where
  left : Option Nat
  right : Option Nat
  deriving DecidableEq, Repr

/-- `SPLAY_LEFT` or `SPLAY_RIGHT` — libmy/tree.h:76-77. -/
def SpEnt.child (e : SpEnt) (d : Bool) : Option Nat := if d then e.left else e.right

/-- Assignment to `SPLAY_LEFT` or `SPLAY_RIGHT`. -/
def SpEnt.setChild (e : SpEnt) (d : Bool) (p : Option Nat) : SpEnt := if d then { e with left := p } else { e with right := p }

/-- The head (`SPLAY_HEAD`, libmy/tree.h:58-61) and the elements in memory. -/
structure SpMem where
  root : Option Nat
  ent : Nat → Option SpEnt

/-- The entry behind a pointer that is dereferenced. -/
def SpMem.get (s : SpMem) : Option Nat → Outcome SpEnt
  | none => ub
  | some i => match s.ent i with
    | none => ub
    | some e => ok e

/-- An assignment to `SPLAY_LEFT` or `SPLAY_RIGHT` of an element. -/
def SpMem.setChild (s : SpMem) (p : Option Nat) (d : Bool) (v : Option Nat) : Outcome SpMem :=
  match p with
  | none => ub
  | some i => match s.ent i with
    | none => ub
    | some e => ok { s with ent := fun j => if j = i then some (e.setChild d v) else s.ent j }

/-- The head and memory, and the local variables of `SPLAY` — libmy/tree.h:206-210: `__node`, and `__right` (`hook true`) and `__left` (`hook false`), where `none` is `&__node`. -/
structure SpState where
  mem : SpMem
  node : SpEnt
  hook : Bool → Option Nat

/-- An assignment to a child of `*__left` or `*__right`. -/
def SpState.setHooked (st : SpState) (p : Option Nat) (d : Bool) (v : Option Nat) : Outcome SpState :=
  match p with
  | none => ok { st with node := st.node.setChild d v }
  | some i => do
    let m ← st.mem.setChild (some i) d v
    ok { st with mem := m }

/-- `SPLAY_ROTATE_RIGHT` (`d = true`) and `SPLAY_ROTATE_LEFT` — libmy/tree.h:82-92. -/
def SpMem.rotate (s : SpMem) (d : Bool) (tmp : Option Nat) : Outcome SpMem := do
  let t ← s.get tmp
  let s ← s.setChild s.root d (t.child (!d))
  let s ← s.setChild tmp (!d) s.root
  ok { s with root := tmp }

/-- `SPLAY_LINKLEFT(head, __right, field)` (`d = true`) and `SPLAY_LINKRIGHT(head, __left, field)` — libmy/tree.h:94-104. -/
def SpState.link (st : SpState) (d : Bool) : Outcome SpState := do
  let st ← st.setHooked (st.hook d) d st.mem.root
  let e ← st.mem.get st.mem.root
  ok { st with mem := { st.mem with root := e.child d }, hook := fun x => if x = d then st.mem.root else st.hook x }

/-- `SPLAY_ASSEMBLE` — libmy/tree.h:106-111. -/
def SpState.assemble (st : SpState) : Outcome SpMem := do
  let e ← st.mem.get st.mem.root
  let st ← st.setHooked (st.hook false) false e.left
  let e ← st.mem.get st.mem.root
  let st ← st.setHooked (st.hook true) true e.right
  let m ← st.mem.setChild st.mem.root true st.node.right
  m.setChild m.root false st.node.left

/-- The comparison is on side `d`: below zero for the left. -/
def onSide (d : Bool) (v : Int) : Bool := if d then v < 0 else v > 0

/-- The body of the loop for one side, up to the link — libmy/tree.h:214-221 (`d = true`), 224-231: the memory, and whether the loop was left by `break`. -/
def spTurn (cmp : Nat → Int) (s : SpMem) (d : Bool) : Outcome (SpMem × Bool) := do
  let e ← s.get s.root
  match e.child d with
  | none => ok (s, true)
  | some t =>
    if onSide d (cmp t) then do
      let s ← s.rotate d (some t)
      let e ← s.get s.root
      ok (s, decide (e.child d = none))
    else ok (s, false)

/-- The loop of `SPLAY` — libmy/tree.h:212-234, and of `SPLAY_MINMAX` — 248-270, where the comparison always gives the same value, not zero. -/
def spLoop (cmp : Nat → Int) : Nat → SpState → Outcome SpState
  | 0, _ => hang
  | fuel + 1, st =>
    match st.mem.root with
    | none => ub
    | some r =>
      if cmp r = 0 then ok st
      else do
        let (m, brk) ← spTurn cmp st.mem (decide (cmp r < 0))
        if brk then ok { st with mem := m }
        else do
          let st ← SpState.link { st with mem := m } (decide (cmp r < 0))
          spLoop cmp fuel st

/-- `SPLAY` — libmy/tree.h:203-236, and `SPLAY_MINMAX` — 241-272. -/
def spSplay (cmp : Nat → Int) (fuel : Nat) (s : SpMem) : Outcome SpMem := do
  let st ← spLoop cmp fuel ⟨s, ⟨none, none⟩, fun _ => none⟩
  st.assemble

/-- The comparison of an element with the root. -/
def spRootCmp (cmp : Nat → Nat → Int) (s : SpMem) (elm : Nat) : Outcome (Nat × Int) :=
  match s.root with
  | none => ub
  | some r => ok (r, cmp elm r)

/-- `SPLAY_FIND` — libmy/tree.h:121-131. -/
def spFind (cmp : Nat → Nat → Int) (fuel : Nat) (s : SpMem) (elm : Nat) : Outcome (SpMem × Option Nat) :=
  if s.root = none then ok (s, none)
  else do
    let s ← spSplay (cmp elm) fuel s
    let (r, c) ← spRootCmp cmp s elm
    if c = 0 then ok (s, some r) else ok (s, none)

/-- `while (SPLAY_LEFT(elm, field) != NULL) elm = SPLAY_LEFT(elm, field);` — libmy/tree.h:139-141. -/
def spEdge (s : SpMem) : Nat → Option Nat → Outcome (Option Nat)
  | 0, _ => hang
  | fuel + 1, elm => do
    let e ← s.get elm
    if e.left ≠ none then spEdge s fuel e.left else ok elm

/-- `SPLAY_NEXT` — libmy/tree.h:133-145. -/
def spNext (cmp : Nat → Nat → Int) (fuel : Nat) (s : SpMem) (elm : Nat) : Outcome (SpMem × Option Nat) := do
  let s ← spSplay (cmp elm) fuel s
  let e ← s.get (some elm)
  if e.right ≠ none then do
    let x ← spEdge s fuel e.right
    ok (s, x)
  else ok (s, none)

/-- `SPLAY_MIN` (`d = true`) and `SPLAY_MAX` — libmy/tree.h:147-152, 278-284. -/
def spMinmax (fuel : Nat) (s : SpMem) (d : Bool) : Outcome (SpMem × Option Nat) :=
  if s.root = none then ok (s, none)
  else do
    let s ← spSplay (fun _ => if d then -1 else 1) fuel s
    ok (s, s.root)

/-- The new root above the old one — libmy/tree.h:168-170 (`d = true`), 172-174. -/
def spCut (s : SpMem) (d : Bool) (elm : Nat) : Outcome SpMem := do
  let e ← s.get s.root
  let s ← s.setChild (some elm) d (e.child d)
  let s ← s.setChild (some elm) (!d) s.root
  s.setChild s.root d none

/-- `SPLAY_INSERT` — libmy/tree.h:158-180. -/
def spInsert (cmp : Nat → Nat → Int) (fuel : Nat) (s : SpMem) (elm : Nat) : Outcome (SpMem × Option Nat) :=
  if s.root = none then do
    let s ← s.setChild (some elm) false none
    let s ← s.setChild (some elm) true none
    ok ({ s with root := some elm }, none)
  else do
    let s ← spSplay (cmp elm) fuel s
    let (r, c) ← spRootCmp cmp s elm
    if c < 0 then do
      let s ← spCut s true elm
      ok ({ s with root := some elm }, none)
    else if c > 0 then do
      let s ← spCut s false elm
      ok ({ s with root := some elm }, none)
    else ok (s, some r)

/-- The root is taken out — libmy/tree.h:190-197. -/
def spBehead (cmp : Nat → Nat → Int) (fuel : Nat) (s : SpMem) (elm : Nat) : Outcome SpMem := do
  let e ← s.get s.root
  if e.left = none then ok { s with root := e.right }
  else do
    let s ← spSplay (cmp elm) fuel { s with root := e.left }
    s.setChild s.root false e.right

/-- `SPLAY_REMOVE` — libmy/tree.h:182-201. -/
def spRemove (cmp : Nat → Nat → Int) (fuel : Nat) (s : SpMem) (elm : Nat) : Outcome (SpMem × Option Nat) :=
  if s.root = none then ok (s, none)
  else do
    let s ← spSplay (cmp elm) fuel s
    let (_, c) ← spRootCmp cmp s elm
    if c = 0 then do
      let s ← spBehead cmp fuel s elm
      ok (s, some elm)
    else ok (s, none)

/-- A call. -/
inductive SpOp where
  | insert (i : Nat)
  | remove (k : Nat)
  | find (k : Nat)
  | next (i : Nat)
  | min
  | max
  deriving DecidableEq, Repr

/-- One call, with what it returns. -/
def spStep (cmp : Nat → Nat → Int) (fuel : Nat) (s : SpMem) : SpOp → Outcome (SpMem × Option Nat)
  | .insert i => spInsert cmp fuel s i
  | .remove k => spRemove cmp fuel s k
  | .find k => spFind cmp fuel s k
  | .next i => spNext cmp fuel s i
  | .min => spMinmax fuel s true
  | .max => spMinmax fuel s false

/-- A series of calls, with what they return. -/
def spRun (cmp : Nat → Nat → Int) (fuel : Nat) : List SpOp → SpMem → Outcome (SpMem × List (Option Nat))
  | [], s => ok (s, [])
  | op :: ops, s => do
    let (s, r) ← spStep cmp fuel s op
    let (s, rs) ← spRun cmp fuel ops s
    ok (s, r :: rs)

/-- The elements `SPLAY_FOREACH` visits from `x` on — libmy/tree.h:286-289; at most `n` steps. -/
def spVisit (cmp : Nat → Nat → Int) (fuel : Nat) : Nat → SpMem → Option Nat → Outcome (SpMem × List Nat)
  | 0, _, _ => hang
  | n + 1, s, x =>
    match x with
    | none => ok (s, [])
    | some i => do
      let (s, y) ← spNext cmp fuel s i
      let (s, rest) ← spVisit cmp fuel n s y
      ok (s, i :: rest)

/-- `SPLAY_FOREACH` — libmy/tree.h:286-289: the elements visited. -/
def spForeach (cmp : Nat → Nat → Int) (fuel n : Nat) (s : SpMem) : Outcome (SpMem × List Nat) := do
  let (s, x) ← spMinmax fuel s true
  spVisit cmp fuel n s x

end Wdns
