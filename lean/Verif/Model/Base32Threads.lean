import Verif.Model.Format
/-! # Calls of `base32_decode` by several threads

`base32_map` is a static table that the first call fills — libmy/b32_decode.c:100, 126-135 — and the only mutable static object of the
library.  Here any number of calls run at the same time; each step of a call makes one access to the table.  The accesses are
taken to be sequentially consistent (C11 calls the race undefined outright; this model is the most benign reading of it). -/

namespace Wdns
open Outcome

/-- The arguments of one call of `base32_decode` — libmy/b32_decode.c:114-115. -/
structure B32Job where
  size : Nat
  text : List UInt8

/-- Where a call is: before the test of `base32_map[0]`, in the loop that fills the table, in the decoding loop with its local
variables (as in `b32DecodeLoop`), or returned — libmy/b32_decode.c:117-210. -/
inductive B32Pc where
  | start
  | fill (i : Nat)
  | scan (rest : List UInt8) (s : List Nat) (pad : Bool) (out : List UInt8)
  | done (r : Option (List UInt8))
deriving DecidableEq

/-- The calls and the table.  Entries are the values of the `char`s converted to `unsigned char` — libmy/b32_decode.c:100. -/
structure B32Sys where
  map : Nat → Nat
  pc : Nat → B32Pc

/-- One turn of the decoding loop for the digits `s` after the character has been looked up — libmy/b32_decode.c:153-206. -/
def b32Turn (size : Nat) (cs : List UInt8) (s : List Nat) (pad : Bool) (out : List UInt8) : B32Pc :=
  if s.length = 8 ∨ pad ∨ cs = [] then
    let out := out ++ (b32Bytes s.length fun j => s.getD j 0).take (size - out.length)
    if out.length = size then .done (some out) else .scan cs [] pad out
  else if out.length = size then .done (some out) else .scan cs s pad out

/-- One step of a call: its access to the table and what it does with it — libmy/b32_decode.c:126 (test), 127-134 (one entry),
140-206 (one turn of the loop, which reads one entry). -/
def b32Step (job : B32Job) (map : Nat → Nat) : B32Pc → (Nat → Nat) × B32Pc
  | .start => if map 0 = 0 then (map, .fill 0) else (map, .scan job.text [] false [])
  | .fill i =>
    if i < 256 then (fun j => if j = i then b32Map (UInt8.ofNat i) else map j, .fill (i + 1))
    else (map, .scan job.text [] false [])
  | .scan [] _ _ out => (map, .done (some out))
  | .scan (c :: cs) s pad out =>
    if c = 61 then (map, b32Turn job.size cs s true out)
    else if map c.toNat = 255 then (map, .done none)
    else (map, b32Turn job.size cs (s ++ [map c.toNat]) pad out)
  | .done r => (map, .done r)

/-- Before the first call: the static table is zero — libmy/b32_decode.c:100. -/
def b32Boot : B32Sys := ⟨fun _ => 0, fun _ => .start⟩

/-- The scheduler lets the calls in `sched` take one step each, in this order.  Calls are numbered; `jobs k` are the arguments of call `k`. -/
def b32Run (jobs : Nat → B32Job) : List Nat → B32Sys → B32Sys
  | [], y => y
  | k :: sched, y =>
    let (map, pc) := b32Step (jobs k) y.map (y.pc k)
    b32Run jobs sched ⟨map, fun j => if j = k then pc else y.pc j⟩

end Wdns
