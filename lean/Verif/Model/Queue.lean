import Verif.Basic

/-!
# Model: the lock-free queue for one producer and one consumer — libmy/my_queue_mb.c

The file is part of the repository but not compiled into the library.  The model is an abstract machine in which a schedule (a list of
`QAct`) decides at every step who acts.  The memory is that of x86-64 (total store order), for which libmy/my_memory_barrier.h:4-9 defines
the barriers: each thread has a FIFO buffer of stores, which the scheduler flushes to memory one at a time; a thread sees its own
buffered stores; `smp_mb` (mfence) waits until the buffer of its thread is empty; `smp_wmb` only restrains the compiler.  Sequentially
consistent executions are those that flush at once.

Simplifications: `memcpy` copies octet by octet in ascending order; the two index variables are read in one step (each thread reads one
variable only it writes, so the other thread cannot tell); the queue is not destroyed while it is used.
-/

namespace Wdns
open Outcome

/-- `struct my_queue` — libmy/my_queue_mb.c:46-52: the fields that never change. -/
structure QConf where
  numElems : Nat
  sizeofElem : Nat
  deriving DecidableEq, Repr

/-- `my_queue_mb_init` — libmy/my_queue_mb.c:54-65: the test of the number of elements (`unsigned` arguments); `none` is NULL. -/
def queueInit (numElems sizeofElem : Nat) : Option QConf :=
  if numElems < 2 ∨ (numElems - 1) &&& numElems ≠ 0 then none else some ⟨numElems, sizeofElem⟩

/-- `q_space` — libmy/my_queue_mb.c:83-87, in 32-bit `unsigned` arithmetic. -/
def qSpace (head tail size : Nat) : Nat := (tail + 2 ^ 32 - (head + 1)) % 2 ^ 32 &&& (size - 1)

/-- `q_count` — libmy/my_queue_mb.c:89-93. -/
def qCount (head tail size : Nat) : Nat := (head + 2 ^ 32 - tail) % 2 ^ 32 &&& (size - 1)

/-- The next index, `(i + 1) & (num_elems - 1)` — libmy/my_queue_mb.c:105, 125. -/
def qNext (c : QConf) (i : Nat) : Nat := (i + 1) &&& (c.numElems - 1)

/-- The index `head * q->sizeof_elem` into `data` — libmy/my_queue_mb.c:103, 123: both factors are `unsigned`. -/
def qOff (c : QConf) (i : Nat) : Nat := i * c.sizeofElem % 2 ^ 32

/-- A store of the producer that is not yet in memory. -/
inductive QStore
  | data (addr : Nat) (b : UInt8)
  | head (v : Nat)
  deriving DecidableEq, Repr

/-- The producer inside `my_queue_mb_insert`, after `space >= 1` (libmy/my_queue_mb.c:102): what it inserts, the local variables
`head` and `space`, and the number of octets copied. -/
structure QIns where
  item : List UInt8
  head : Nat
  space : Nat
  k : Nat
  deriving DecidableEq, Repr

/-- The consumer inside `my_queue_mb_remove`, after `count >= 1` (libmy/my_queue_mb.c:122): the local variables `tail` and `count`, and the
octets copied so far. -/
structure QRem where
  tail : Nat
  count : Nat
  got : List UInt8
  deriving DecidableEq, Repr

/-- Memory (libmy/my_queue_mb.c:46-52), the store buffers, and where the two threads are (`none`: not in a call). -/
structure QState where
  data : List UInt8
  head : Nat
  tail : Nat
  pbuf : List QStore
  cbuf : List Nat
  prod : Option QIns
  cons : Option QRem
  deriving DecidableEq, Repr

/-- What the scheduler does: the next step of the producer (which inserts `item` if it is not in a call), of the consumer, or the oldest
buffered store of one of them reaches memory. -/
inductive QAct
  | prod (item : List UInt8)
  | cons
  | flushP
  | flushC
  deriving DecidableEq, Repr

/-- A call returns: `inserted item res space` from `my_queue_mb_insert`, `removed item count` from `my_queue_mb_remove` (`none`: it returns
false). -/
inductive QEvent
  | inserted (item : List UInt8) (res : Bool) (space : Nat)
  | removed (item : Option (List UInt8)) (count : Nat)
  deriving DecidableEq, Repr

/-- After `my_queue_mb_init`, whose `my_calloc` zeroes everything (libmy/my_queue_mb.c:60-63). -/
def queueStart (c : QConf) : QState := ⟨List.replicate (c.numElems * c.sizeofElem) 0, 0, 0, [], [], none, none⟩

/-- The value of a store to `head`. -/
def QStore.headVal : QStore → Option Nat
  | .data _ _ => none
  | .head v => some v

/-- A load of `q->head` by the producer: the youngest buffered store to it, else memory. -/
def ownHead (s : QState) : Nat := (s.pbuf.filterMap QStore.headVal).getLast?.getD s.head

/-- A load of `q->tail` by the consumer. -/
def ownTail (s : QState) : Nat := s.cbuf.getLast?.getD s.tail

/-- One step of `my_queue_mb_insert` — libmy/my_queue_mb.c:95-113. -/
def prodStep (c : QConf) (s : QState) (item : List UInt8) : Outcome (QState × Option QEvent) :=
  match s.prod with
  | none =>                                                            -- lines 99-102
    let head := ownHead s
    let space := qSpace head s.tail c.numElems
    if space ≥ 1 then
      if item.length = c.sizeofElem then ok ({ s with prod := some ⟨item, head, space, 0⟩ }, none) else ub
    else ok (s, some (.inserted item false space))
  | some i =>
    if i.k < c.sizeofElem then                                         -- one octet of the memcpy, line 103
      if qOff c i.head + i.k < s.data.length then
        ok ({ s with pbuf := s.pbuf ++ [.data (qOff c i.head + i.k) (i.item.getD i.k 0)], prod := some { i with k := i.k + 1 } }, none)
      else ub
    else                                                               -- lines 104-112
      ok ({ s with pbuf := s.pbuf ++ [.head (qNext c i.head)], prod := none }, some (.inserted i.item true (i.space - 1)))

/-- One step of `my_queue_mb_remove` — libmy/my_queue_mb.c:115-132. -/
def consStep (c : QConf) (s : QState) : Outcome (QState × Option QEvent) :=
  match s.cons with
  | none =>                                                            -- lines 119-122
    let tail := ownTail s
    let count := qCount s.head tail c.numElems
    if count ≥ 1 then ok ({ s with cons := some ⟨tail, count, []⟩ }, none)
    else ok (s, some (.removed none count))
  | some r =>
    if r.got.length < c.sizeofElem then do                             -- one octet of the memcpy, line 123
      let b ← rd s.data (qOff c r.tail + r.got.length)
      ok ({ s with cons := some { r with got := r.got ++ [b] } }, none)
    else if s.cbuf = [] then                                           -- smp_mb has drained the buffer; lines 125-131
      ok ({ s with cbuf := [qNext c r.tail], cons := none }, some (.removed (some r.got) (r.count - 1)))
    else ok (s, none)                                                  -- smp_mb waits, line 124

/-- The oldest buffered store of the producer reaches memory. -/
def flushProd (s : QState) : QState :=
  match s.pbuf with
  | [] => s
  | .data a b :: rest => { s with data := s.data.set a b, pbuf := rest }
  | .head v :: rest => { s with head := v, pbuf := rest }

/-- The oldest buffered store of the consumer reaches memory. -/
def flushCons (s : QState) : QState :=
  match s.cbuf with
  | [] => s
  | v :: rest => { s with tail := v, cbuf := rest }

/-- One step of the machine. -/
def queueStep (c : QConf) (s : QState) : QAct → Outcome (QState × Option QEvent)
  | .prod item => prodStep c s item
  | .cons => consStep c s
  | .flushP => ok (flushProd s, none)
  | .flushC => ok (flushCons s, none)

/-- A schedule: the state at its end and the calls that returned, in order. -/
def queueRun (c : QConf) (s : QState) : List QAct → Outcome (QState × List QEvent)
  | [] => ok (s, [])
  | a :: as => do
    let (s, e) ← queueStep c s a
    let (s, es) ← queueRun c s as
    ok (s, e.toList ++ es)

end Wdns
