import Verif.Basic

/-!
# Model: atomic counters and pointers

libmy/atomic.h (`w = 32`), libmy/atomic_64.h (`w = 64`) and libmy/atomic_ptr.h.  The `__sync` functions of the compiler are atomic and full barriers; they wrap
around without undefined behaviour.  A run of several threads is therefore a sequence of operations.
-/

namespace Wdns
open Outcome

/-- (Compiler.)  A value stored in a signed integer of `w` bits. -/
def toSigned (w : Nat) (x : Int) : Int := x.bmod (2 ^ w)

/-- The operations on a counter; the arguments are of type `int`, in both files. -/
inductive AOp where
  | read
  | set (i : Int)
  | add (i : Int)
  | sub (i : Int)
  | zero
  | subTest (i : Int)
  | inc
  | dec
  | decTest
  | incTest
  | addNeg (i : Int)
  deriving DecidableEq, Repr

/-- (Arithmetic.)  The result of a test, an `int`. -/
def testInt (b : Bool) : Int := if b then 1 else 0

/-- One operation: its result (0 if it has none) and the counter after it — libmy/atomic.h:15-138, libmy/atomic_64.h:16-140.  In both files `zero` returns an `int`. -/
def aExec (w : Nat) (c : Int) : AOp → Int × Int
  | .read => (c, c)                                                     -- :24
  | .set i => (0, toSigned w i)                                         -- :31
  | .add i => (0, toSigned w (c + i))                                   -- :38-41
  | .sub i => (0, toSigned w (c - i))                                   -- :50-53
  | .zero => (toSigned 32 c, 0)                                         -- :60-63
  | .subTest i => let c := toSigned w (c - i); (testInt (c == 0), c)    -- :74-77
  | .inc => (0, toSigned w (c + 1))                                     -- :85-88
  | .dec => (0, toSigned w (c - 1))                                     -- :97-100
  | .decTest => let c := toSigned w (c - 1); (testInt (c == 0), c)      -- :110-113
  | .incTest => let c := toSigned w (c + 1); (testInt (c == 0), c)      -- :123-126
  | .addNeg i => let c := toSigned w (c + i); (testInt (c < 0), c)      -- :137-140

/-- (Driver.)  A run: the results, in order, and the counter at the end. -/
def aRun (w : Nat) : Int → List AOp → List Int × Int
  | c, [] => ([], c)
  | c, op :: ops =>
    let r := aExec w c op
    let q := aRun w r.2 ops
    (r.1 :: q.1, q.2)

/-- Where a thread is in `atomic_ptr_set` — libmy/atomic_ptr.h:13-17: before it, or between the two atomic operations. -/
inductive PsPc where
  | idle
  | got (old new : Nat)
  deriving DecidableEq, Repr

/-- The pointer, the threads, and the results so far (thread, old, new, success) for the specification. -/
structure PsState where
  ptr : Nat
  pc : Nat → PsPc
  done : List (Nat × Nat × Nat × Bool)

/-- A step: the first or the second half of `atomic_ptr_set` in thread `t`. -/
inductive PsEv where
  | start (t new : Nat)
  | finish (t : Nat)
  deriving DecidableEq, Repr

/-- One step — libmy/atomic_ptr.h:15 and :16; `none`: it cannot happen now. -/
def psStep (s : PsState) : PsEv → Option PsState
  | .start t new => if s.pc t = .idle then some { s with pc := fun i => if i = t then .got s.ptr new else s.pc i } else none
  | .finish t =>
    match s.pc t with
    | .idle => none
    | .got old new =>
      some { ptr := if s.ptr = old then new else s.ptr
             pc := fun i => if i = t then .idle else s.pc i
             done := s.done ++ [(t, old, new, decide (s.ptr = old))] }

/-- (Driver.)  Run some events. -/
def psRun : PsState → List PsEv → Option PsState
  | s, [] => some s
  | s, e :: es => (psStep s e).bind fun s => psRun s es

end Wdns
