import Verif.Model.Queue

/-!
# Model: the queue with a lock, for any number of threads — libmy/my_queue_mutex.c

The file is part of the repository but not compiled into the library.  Threads are numbered; a schedule (a list of thread numbers, each with the
call the thread makes if it is not in one) decides at every step who acts.  A POSIX mutex makes its critical sections see each other's
stores, so memory is sequentially consistent.  `memcpy` copies octet by octet; the two indices are read in one step.
The operations of the mutex do not fail.
-/

namespace Wdns
open Outcome

/-- A call. -/
inductive MOp
  | insert (item : List UInt8)
  | remove
  deriving DecidableEq, Repr

/-- Where a thread is in `my_queue_mutex_insert` (libmy/my_queue_mutex.c:115-133) or `my_queue_mutex_remove` (:135-153). -/
inductive MThread
  | idle
  | want (op : MOp)                                    -- in `q_lock`
  | locked (op : MOp)                                  -- after it
  | ins (i : QIns)                                     -- copying the item in
  | rem (r : QRem)                                     -- copying the item out
  | leave (e : QEvent)                                 -- before `q_unlock`; `e` is what will be returned
  deriving DecidableEq, Repr

/-- `struct my_queue` — libmy/my_queue_mutex.c:33-40 — and the threads.  `lock` is the thread that holds the mutex. -/
structure MState where
  data : List UInt8
  head : Nat
  tail : Nat
  lock : Option Nat
  th : Nat → MThread

/-- After `my_queue_mutex_init` — libmy/my_queue_mutex.c:57-70 (the same test of the arguments as `queueInit`). -/
def mutexStart (c : QConf) : MState := ⟨List.replicate (c.numElems * c.sizeofElem) 0, 0, 0, none, fun _ => .idle⟩

/-- Thread `t` is now at `x`. -/
def MState.at (s : MState) (t : Nat) (x : MThread) : MState := { s with th := fun u => if u = t then x else s.th u }

/-- One step of thread `t`; a call that returns gives an event.  libmy/my_queue_mutex.c:115-153. -/
def mutexStep (c : QConf) (s : MState) (t : Nat) (op : MOp) : Outcome (MState × Option (Nat × QEvent)) :=
  match s.th t with
  | .idle => ok (s.at t (.want op), none)
  | .want op =>                                                        -- q_lock, lines 118, 138
    match s.lock with
    | none => ok ({ s.at t (.locked op) with lock := some t }, none)
    | some _ => ok (s, none)
  | .locked (.insert item) =>                                          -- lines 119-123
    let space := qSpace s.head s.tail c.numElems
    if space ≥ 1 then
      if item.length = c.sizeofElem then ok (s.at t (.ins ⟨item, s.head, space, 0⟩), none) else ub
    else ok (s.at t (.leave (.inserted item false space)), none)
  | .locked .remove =>                                                 -- lines 139-143
    let count := qCount s.head s.tail c.numElems
    if count ≥ 1 then ok (s.at t (.rem ⟨s.tail, count, []⟩), none)
    else ok (s.at t (.leave (.removed none count)), none)
  | .ins i =>
    if i.k < c.sizeofElem then                                         -- one octet of the memcpy, line 124
      if qOff c i.head + i.k < s.data.length then
        ok ({ s.at t (.ins { i with k := i.k + 1 }) with data := s.data.set (qOff c i.head + i.k) (i.item.getD i.k 0) }, none)
      else ub
    else                                                               -- lines 125-127
      ok ({ s.at t (.leave (.inserted i.item true (i.space - 1))) with head := qNext c i.head }, none)
  | .rem r =>
    if r.got.length < c.sizeofElem then do                             -- one octet of the memcpy, line 144
      let b ← rd s.data (qOff c r.tail + r.got.length)
      ok (s.at t (.rem { r with got := r.got ++ [b] }), none)
    else                                                               -- lines 145-147
      ok ({ s.at t (.leave (.removed (some r.got) (r.count - 1))) with tail := qNext c r.tail }, none)
  | .leave e => ok ({ s.at t .idle with lock := none }, some (t, e))   -- q_unlock and return, lines 129-132, 149-152

/-- A schedule: the state at its end and the calls that returned, in order, with the thread that made each. -/
def mutexRun (c : QConf) (s : MState) : List (Nat × MOp) → Outcome (MState × List (Nat × QEvent))
  | [] => ok (s, [])
  | a :: as => do
    let (s, e) ← mutexStep c s a.1 a.2
    let (s, es) ← mutexRun c s as
    ok (s, e.toList ++ es)

end Wdns
