import Verif.Basic

/-!
# Model: doubly-linked lists (libmy/list.h)

The macros work on any number of lists whose elements have one `link` member.  `ISC_INSIST` and `ISC_LINK_INSIST` are empty (libmy/list.h:21-22).
-/

namespace Wdns
open Outcome

/-- A pointer to an element: `NULL`, `(type *)(-1)`, or an element. -/
inductive LPtr
  | null
  | bad
  | elt (n : Nat)
  deriving DecidableEq, Repr

/-- `ISC_LINK` — libmy/list.h:28. -/
structure LLink where
  prev : LPtr
  next : LPtr
  deriving DecidableEq, Repr

/-- `ISC_LIST` — libmy/list.h:24. -/
structure LHead where
  head : LPtr
  tail : LPtr
  deriving DecidableEq, Repr

/-- The elements and the lists. -/
structure LState where
  mem : Nat → LLink
  lists : Nat → LHead

/-- `p->link.prev = v`. -/
def setPrev (s : LState) (p v : LPtr) : Outcome LState :=
  match p with
  | .elt n => ok { s with mem := fun m => if m = n then { s.mem n with prev := v } else s.mem m }
  | _ => ub

/-- `p->link.next = v`. -/
def setNext (s : LState) (p v : LPtr) : Outcome LState :=
  match p with
  | .elt n => ok { s with mem := fun m => if m = n then { s.mem n with next := v } else s.mem m }
  | _ => ub

/-- `list.head = v`. -/
def setHead (s : LState) (k : Nat) (v : LPtr) : LState := { s with lists := fun j => if j = k then { s.lists k with head := v } else s.lists j }

/-- `list.tail = v`. -/
def setTail (s : LState) (k : Nat) (v : LPtr) : LState := { s with lists := fun j => if j = k then { s.lists k with tail := v } else s.lists j }

/-- `ISC_LIST_INIT` — libmy/list.h:25-26. -/
def lInit (s : LState) (k : Nat) : LState := setTail (setHead s k .null) k .null

/-- `ISC_LINK_INIT` — libmy/list.h:29-35. -/
def lLinkInit (s : LState) (x : Nat) : Outcome LState := do
  let s ← setPrev s (.elt x) .bad
  setNext s (.elt x) .bad

/-- `ISC_LINK_LINKED` — libmy/list.h:36. -/
def lLinked (s : LState) (x : Nat) : Bool := (s.mem x).prev ≠ .bad

/-- `ISC_LIST_EMPTY` — libmy/list.h:40. -/
def lEmpty (s : LState) (k : Nat) : Bool := (s.lists k).head = .null

/-- First statement of `__ISC_LIST_PREPENDUNSAFE` — libmy/list.h:44-47. -/
def lPrependHead (s : LState) (k x : Nat) : Outcome LState :=
  if (s.lists k).head ≠ .null then setPrev s (s.lists k).head (.elt x) else ok (setTail s k (.elt x))

/-- `ISC_LIST_PREPEND` — libmy/list.h:42-57. -/
def lPrepend (s : LState) (k x : Nat) : Outcome LState := do
  let s ← lPrependHead s k x
  let s ← setPrev s (.elt x) .null
  let s ← setNext s (.elt x) (s.lists k).head
  ok (setHead s k (.elt x))

/-- First statement of `__ISC_LIST_APPENDUNSAFE` — libmy/list.h:64-67. -/
def lAppendTail (s : LState) (k x : Nat) : Outcome LState :=
  if (s.lists k).tail ≠ .null then setNext s (s.lists k).tail (.elt x) else ok (setHead s k (.elt x))

/-- `ISC_LIST_APPEND` (`ISC_LIST_ENQUEUE`) — libmy/list.h:62-77, 165. -/
def lAppend (s : LState) (k x : Nat) : Outcome LState := do
  let s ← lAppendTail s k x
  let s ← setPrev s (.elt x) (s.lists k).tail
  let s ← setNext s (.elt x) .null
  ok (setTail s k (.elt x))

/-- First statement of `__ISC_LIST_UNLINKUNSAFE_TYPE` — libmy/list.h:84-89. -/
def lUnlinkNext (s : LState) (k x : Nat) : Outcome LState :=
  if (s.mem x).next ≠ .null then setPrev s (s.mem x).next (s.mem x).prev else ok (setTail s k (s.mem x).prev)

/-- Second statement — libmy/list.h:90-95. -/
def lUnlinkPrev (s : LState) (k x : Nat) : Outcome LState :=
  if (s.mem x).prev ≠ .null then setNext s (s.mem x).prev (s.mem x).next else ok (setHead s k (s.mem x).next)

/-- `ISC_LIST_UNLINK` (`ISC_LIST_DEQUEUE`) — libmy/list.h:82-109, 168-171. -/
def lUnlink (s : LState) (k x : Nat) : Outcome LState := do
  let s ← lUnlinkNext s k x
  let s ← lUnlinkPrev s k x
  let s ← setPrev s (.elt x) .bad
  setNext s (.elt x) .bad

/-- `ISC_LIST_INSERTBEFORE` — libmy/list.h:114-131. -/
def lInsertBefore (s : LState) (k b x : Nat) : Outcome LState :=
  if (s.mem b).prev = .null then lPrepend s k x
  else do
    let s ← setPrev s (.elt x) (s.mem b).prev
    let s ← setPrev s (.elt b) (.elt x)
    let s ← setNext s (s.mem x).prev (.elt x)
    setNext s (.elt x) (.elt b)

/-- `ISC_LIST_INSERTAFTER` — libmy/list.h:133-150. -/
def lInsertAfter (s : LState) (k a x : Nat) : Outcome LState :=
  if (s.mem a).next = .null then lAppend s k x
  else do
    let s ← setNext s (.elt x) (s.mem a).next
    let s ← setNext s (.elt a) (.elt x)
    let s ← setPrev s (s.mem x).next (.elt x)
    setPrev s (.elt x) (.elt a)

/-- First statement of `ISC_LIST_APPENDLIST` — libmy/list.h:154-160. -/
def lJoin (s : LState) (k j : Nat) : Outcome LState :=
  if lEmpty s k then ok { s with lists := fun i => if i = k then s.lists j else s.lists i }
  else if ¬ lEmpty s j then do
    let s ← setNext s (s.lists k).tail (s.lists j).head
    let s ← setPrev s (s.lists j).head (s.lists k).tail
    ok (setTail s k (s.lists j).tail)
  else ok s

/-- `ISC_LIST_APPENDLIST` — libmy/list.h:152-163. -/
def lAppendList (s : LState) (k j : Nat) : Outcome LState := do
  let s ← lJoin s k j
  ok (setTail (setHead s j .null) j .null)

end Wdns
