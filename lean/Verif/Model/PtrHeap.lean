import Verif.Basic

/-!
# Model: the priority queue — libmy/heap.c

The file is part of the repository but not compiled into the library.  The items are of an arbitrary type (pointers in C), the vector of
pointers is a list (C57 relates such lists to the blocks of vector.h), `NULL` is `none`.  Functions that compare also return the number of calls of
the comparison function.  `size_t` arithmetic on positions does not wrap for vectors that fit in memory.
-/

namespace Wdns
open Outcome

variable {α : Type}

/-- Reading an element, `ptrvec_value` — libmy/vector.h. -/
def vAt (v : List α) (i : Nat) : Outcome α :=
  match v[i]? with
  | some x => ok x
  | none => ub

/-- Writing an element through `ptrvec_data`. -/
def vPut (v : List α) (i : Nat) (x : α) : Outcome (List α) := if i < v.length then ok (v.set i x) else ub

/-- `cmp_wrapper` — libmy/heap.c:30-34: it returns 1 or 0, so that the tests `cmp == -1` of its callers never succeed. -/
def cmpWrapper (cmp : α → α → Int) (a b : α) : Bool := cmp a b < 0

/-- The loop and the final store of `siftdown` — libmy/heap.c:59-72. -/
def siftdownLoop (cmp : α → α → Int) (startpos : Nat) (newitem : α) : Nat → List α → Nat → Nat → Outcome (List α × Nat)
  | 0, _, _, _ => hang
  | fuel + 1, v, pos, k =>
    if pos > startpos then do
      let parentpos := (pos - 1) >>> 1
      let parent ← vAt v parentpos
      if cmpWrapper cmp newitem parent then
        let v ← vPut v pos parent
        siftdownLoop cmp startpos newitem fuel v parentpos (k + 1)
      else do
        let v ← vPut v pos newitem
        ok (v, k + 1)
    else do
      let v ← vPut v pos newitem
      ok (v, k)

/-- `siftdown` — libmy/heap.c:55-73. -/
def siftdown (cmp : α → α → Int) (v : List α) (startpos pos k : Nat) : Outcome (List α × Nat) :=
  if pos < v.length then do
    let newitem ← vAt v pos
    siftdownLoop cmp startpos newitem (pos + 1) v pos k
  else abort

/-- The loop of `siftup` — libmy/heap.c:80-97: the vector, `pos` and the number of comparisons. -/
def siftupLoop (cmp : α → α → Int) : Nat → List α → Nat → Nat → Outcome (List α × Nat × Nat)
  | 0, _, _, _ => hang
  | fuel + 1, v, pos, k =>
    let childpos := 2 * pos + 1
    if childpos < v.length then do
      let rightpos := childpos + 1
      let (childpos, k) ← (if rightpos < v.length then do
          let a ← vAt v childpos
          let b ← vAt v rightpos
          if cmpWrapper cmp a b then ok (childpos, k + 1) else ok (rightpos, k + 1)
        else ok (childpos, k))
      let c ← vAt v childpos
      let v ← vPut v pos c
      siftupLoop cmp fuel v childpos k
    else ok (v, pos, k)

/-- `siftup` — libmy/heap.c:75-100. -/
def siftup (cmp : α → α → Int) (v : List α) (pos : Nat) : Outcome (List α × Nat) :=
  if pos < v.length then do
    let newitem ← vAt v pos
    let (v, p, k) ← siftupLoop cmp (v.length + 1) v pos 0
    let v ← vPut v p newitem
    siftdown cmp v pos p k
  else abort

/-- `heap_push` — libmy/heap.c:102-107. -/
def heapPush (cmp : α → α → Int) (v : List α) (item : α) : Outcome (List α × Nat) :=
  let v := v ++ [item]
  siftdown cmp v 0 (v.length - 1) 0

/-- `heap_pop` — libmy/heap.c:109-125: the vector, the item returned and the number of comparisons. -/
def heapPop (cmp : α → α → Int) (v : List α) : Outcome (List α × Option α × Nat) :=
  if v.length < 1 then ok (v, none, 0)
  else do
    let lastelt ← vAt v (v.length - 1)
    let v := v.take (v.length - 1)
    if v.length > 0 then do
      let returnitem ← vAt v 0
      let v ← vPut v 0 lastelt
      let (v, k) ← siftup cmp v 0
      ok (v, some returnitem, k)
    else ok (v, some lastelt, 0)

/-- `heap_replace` — libmy/heap.c:128-137. -/
def heapReplace (cmp : α → α → Int) (v : List α) (item : α) : Outcome (List α × Option α × Nat) :=
  if v.length < 1 then ok (v, none, 0)
  else do
    let returnitem ← vAt v 0
    let v ← vPut v 0 item
    let (v, k) ← siftup cmp v 0
    ok (v, some returnitem, k)

/-- `heap_peek` — libmy/heap.c:139-145. -/
def heapPeek (v : List α) : Outcome (Option α) :=
  if v.length < 1 then ok none
  else do
    let x ← vAt v 0
    ok (some x)

/-- `heap_get` — libmy/heap.c:147-153: `ptrvec_size(h->vec) - 1` is a `size_t`, which wraps for an empty heap. -/
def heapGet (v : List α) (i : Nat) : Outcome (Option α) :=
  if i > (v.length + 2 ^ 64 - 1) % 2 ^ 64 then ok none
  else do
    let x ← vAt v i
    ok (some x)

/-- `heap_size` — libmy/heap.c:155-158. -/
def heapSize (v : List α) : Nat := v.length

/-- A call on a heap. -/
inductive HOp (α : Type)
  | push (x : α)
  | pop
  | replace (x : α)
  | peek
  deriving Repr

/-- What a call returned: the item, and the number of comparisons it made. -/
abbrev HRet (α : Type) := Option α × Nat

/-- One call. -/
def heapOp (cmp : α → α → Int) (v : List α) : HOp α → Outcome (List α × HRet α)
  | .push x => do
    let (v, k) ← heapPush cmp v x
    ok (v, none, k)
  | .pop => heapPop cmp v
  | .replace x => heapReplace cmp v x
  | .peek => do
    let r ← heapPeek v
    ok (v, r, 0)

/-- A sequence of calls; `heap_init` (libmy/heap.c:36-43) gives the empty vector. -/
def heapRun (cmp : α → α → Int) (v : List α) : List (HOp α) → Outcome (List α × List (HRet α))
  | [] => ok (v, [])
  | o :: os => do
    let (v, r) ← heapOp cmp v o
    let (v, rs) ← heapRun cmp v os
    ok (v, r :: rs)

end Wdns
