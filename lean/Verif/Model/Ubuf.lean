import Verif.Basic

/-!
# Model: the growable buffer

libmy/vector.h (`VECTOR_GENERATE`) instantiated at `uint8_t` as `ubuf` in libmy/ubuf.h.

Storage is a list of cells; `none` is a byte that was never written.  Sizes are natural numbers: overflow of
`size_t` and failure of `malloc` (an `assert` in libmy/my_alloc.h) are not modelled.
-/

namespace Wdns
open Outcome

/-- The structure of libmy/vector.h:22-26: `_v` (the storage), `_p` (an index into it), `_n`, `_n_alloced`,
`_hint`. -/
structure Ubuf where
  v : List (Option UInt8)
  p : Nat
  n : Nat
  nAlloced : Nat
  hint : Nat
  deriving DecidableEq, Repr

namespace Ubuf

/-- `my_malloc` of `k` bytes: nothing is written yet (libmy/my_alloc.h). -/
def malloc (k : Nat) : List (Option UInt8) := List.replicate k none

/-- `my_realloc`: the common prefix is kept (libmy/my_alloc.h). -/
def realloc (v : List (Option UInt8)) (k : Nat) : List (Option UInt8) :=
  (v ++ List.replicate (k - v.length) none).take k

/-- A write of several cells at index `off` of a block (`memcpy`). -/
def poke (v : List (Option UInt8)) (off : Nat) (bs : List (Option UInt8)) :
    Outcome (List (Option UInt8)) :=
  if off + bs.length ≤ v.length then ok (v.take off ++ bs ++ v.drop (off + bs.length)) else ub

/-- `name##_init` — libmy/vector.h:27-38, and `name##_reinit` — :39-48 (which forgets the old block). -/
def init (hint : Nat) : Ubuf :=
  let hint := if hint = 0 then 1 else hint
  ⟨malloc hint, 0, 0, hint, hint⟩

/-- `name##_detach` — libmy/vector.h:49-59: the detached block, its element count and the new vector. -/
def detach (u : Ubuf) : (List (Option UInt8) × Nat) × Ubuf :=
  ((u.v, u.n), ⟨malloc u.hint, 0, 0, u.hint, u.hint⟩)

/-- `name##_reserve` — libmy/vector.h:69-79. -/
def reserveLoop (k : Nat) : Nat → Ubuf → Outcome Ubuf
  | 0, _ => hang
  | fuel + 1, u =>
    if k > u.nAlloced - u.n then
      reserveLoop k fuel ⟨realloc u.v (u.nAlloced * 2), u.n, u.n, u.nAlloced * 2, u.hint⟩
    else ok u

/-- `name##_reserve` (libmy/vector.h:69-79) with enough fuel for any terminating run. -/
def reserve (u : Ubuf) (k : Nat) : Outcome Ubuf := reserveLoop k (u.n + k + 1) u

/-- The loop of `name##_add` — libmy/vector.h:84-89. -/
def addLoop : Nat → Ubuf → Outcome Ubuf
  | 0, _ => hang
  | fuel + 1, u =>
    if u.n + 1 > u.nAlloced then
      addLoop fuel ⟨realloc u.v (u.nAlloced * 2), u.n, u.n, u.nAlloced * 2, u.hint⟩
    else ok u

/-- `name##_add` — libmy/vector.h:80-93. -/
def add (u : Ubuf) (b : UInt8) : Outcome Ubuf := do
  let u ← addLoop (u.n + 2) u
  let v ← poke u.v u.n [some b]
  ok ⟨v, u.n + 1, u.n + 1, u.nAlloced, u.hint⟩

/-- `name##_append` — libmy/vector.h:94-102; `cells` are the bytes of the source, read after the
reservation. -/
def append (u : Ubuf) (cells : List (Option UInt8)) : Outcome Ubuf := do
  let u ← reserve u cells.length
  let v ← poke u.v u.n cells
  ok ⟨v, u.n + cells.length, u.n + cells.length, u.nAlloced, u.hint⟩

/-- `name##_extend` — libmy/vector.h:103-108, of two different vectors. -/
def extend (u w : Ubuf) : Outcome Ubuf :=
  if w.n ≤ w.v.length then append u (w.v.take w.n) else ub

/-- `name##_extend(vec, vec)` (libmy/vector.h:103-108): the source pointer is taken before the reservation, so if that reallocates,
the `memcpy` reads a block that has been freed. -/
def extendSelf (u : Ubuf) : Outcome Ubuf :=
  if u.n > u.nAlloced - u.n then ub else extend u u

/-- `name##_reset` — libmy/vector.h:109-120. -/
def reset (u : Ubuf) : Ubuf :=
  if u.nAlloced > u.hint then ⟨realloc u.v u.hint, 0, 0, u.hint, u.hint⟩
  else ⟨u.v, 0, 0, u.nAlloced, u.hint⟩

/-- `name##_clip` — libmy/vector.h:121-129. -/
def clip (u : Ubuf) (k : Nat) : Ubuf :=
  if k < u.n then ⟨u.v, k, k, u.nAlloced, u.hint⟩ else u

/-- `name##_value` — libmy/vector.h:142-148. -/
def value (u : Ubuf) (i : Nat) : Outcome UInt8 :=
  if i < u.n then
    match u.v[i]? with
    | some (some b) => ok b
    | _ => ub
  else abort

/-- `name##_advance` — libmy/vector.h:161-168. -/
def advance (u : Ubuf) (x : Nat) : Outcome Ubuf :=
  if x ≤ u.nAlloced - u.n then ok ⟨u.v, u.n + x, u.n + x, u.nAlloced, u.hint⟩ else abort

/-- Writing `bs` through `ubuf_ptr(u)` (the pointer `_p`), as `vsnprintf` in libmy/ubuf.h:91 does. -/
def pokePtr (u : Ubuf) (bs : List UInt8) : Outcome Ubuf := do
  let v ← poke u.v u.p (bs.map some)
  ok { u with v := v }

/-- `if (ubuf_size(u) > 0 && ubuf_value(u, ubuf_size(u) - 1) == c) ubuf_clip(u, ubuf_size(u) - 1)`:
`ubuf_rstrip` — libmy/ubuf.h:98-106, and the first statement of `ubuf_add_cstr` and `ubuf_add_fmt`. -/
def rstrip (u : Ubuf) (c : UInt8) : Outcome Ubuf :=
  if u.n > 0 then do
    let b ← value u (u.n - 1)
    if b = c then ok (clip u (u.n - 1)) else ok u
  else ok u

/-- `ubuf_dup_cstr` — libmy/ubuf.h:40-47; the hint is an `unsigned`. -/
def dupCstr (s : List UInt8) : Outcome Ubuf :=
  append (init ((s.length + 1) % 4294967296)) (s.map some)

/-- `ubuf_add_cstr` — libmy/ubuf.h:49-55. -/
def addCstr (u : Ubuf) (s : List UInt8) : Outcome Ubuf := do
  let u ← rstrip u 0
  append u (s.map some)

/-- `ubuf_cterm` — libmy/ubuf.h:57-65. -/
def cterm (u : Ubuf) : Outcome Ubuf :=
  if u.n = 0 then append u [some 0]
  else do
    let b ← value u (u.n - 1)
    if b ≠ 0 then append u [some 0] else ok u

/-- `ubuf_add_fmt` — libmy/ubuf.h:74-97; `s` is the formatted text. -/
def addFmt (u : Ubuf) (s : List UInt8) : Outcome Ubuf := do
  let u ← rstrip u 0
  let u ← reserve u (u.n + s.length + 1)
  let u ← pokePtr u (s ++ [0])
  advance u s.length

end Ubuf

/-- The operations of the interface (libmy/vector.h:27-168, libmy/ubuf.h:34-106), on a collection of vectors named by their position.  `fill i k bs x` is
the reserve / write through `ubuf_ptr` / advance protocol. -/
inductive UOp where
  | init (hint : Nat)
  | dupCstr (s : List UInt8)
  | reinit (i hint : Nat)
  | detach (i : Nat)
  | destroy (i : Nat)
  | reserve (i k : Nat)
  | add (i : Nat) (b : UInt8)
  | append (i : Nat) (bs : List UInt8)
  | extend (i j : Nat)
  | reset (i : Nat)
  | clip (i k : Nat)
  | size (i : Nat)
  | value (i k : Nat)
  | fill (i k : Nat) (bs : List UInt8) (x : Nat)
  | addCstr (i : Nat) (s : List UInt8)
  | addFmt (i : Nat) (s : List UInt8)
  | cterm (i : Nat)
  | rstrip (i : Nat) (c : UInt8)
  deriving DecidableEq, Repr

/-- (Driver, not C code.)  What an operation hands to its caller: nothing, a size, a byte, or a detached block and its length. -/
inductive UOut where
  | none
  | size (n : Nat)
  | byte (b : UInt8)
  | block (v : List (Option UInt8)) (n : Nat)
  deriving DecidableEq, Repr

/-- (Driver.)  The live vectors; `none` for one that was destroyed. -/
abbrev UState := List (Option Ubuf)

/-- (Driver.)  Use of a vector that does not exist is undefined. -/
def uGet (s : UState) (i : Nat) : Outcome Ubuf :=
  match s[i]? with
  | some (some u) => ok u
  | _ => ub

/-- (Driver.)  Run one operation. -/
def uStep (op : UOp) (s : UState) : Outcome (UState × UOut) :=
  let on (i : Nat) (f : Ubuf → Outcome Ubuf) : Outcome (UState × UOut) := do
    let u ← uGet s i
    let u ← f u
    ok (s.set i (some u), .none)
  match op with
  | .init hint => ok (s ++ [some (Ubuf.init hint)], .none)
  | .dupCstr t => do let u ← Ubuf.dupCstr t; ok (s ++ [some u], .none)
  | .reinit i hint => on i fun _ => ok (Ubuf.init hint)
  | .detach i => do
    let u ← uGet s i
    ok (s.set i (some (Ubuf.detach u).2), .block (Ubuf.detach u).1.1 (Ubuf.detach u).1.2)
  | .destroy i => do
    let _ ← uGet s i
    ok (s.set i none, .none)
  | .reserve i k => on i fun u => u.reserve k
  | .add i b => on i fun u => u.add b
  | .append i bs => on i fun u => u.append (bs.map some)
  | .extend i j => do
    let w ← uGet s j
    on i fun u => if i = j then u.extendSelf else u.extend w
  | .reset i => on i fun u => ok u.reset
  | .clip i k => on i fun u => ok (u.clip k)
  | .size i => do let u ← uGet s i; ok (s, .size u.n)
  | .value i k => do let u ← uGet s i; let b ← u.value k; ok (s, .byte b)
  | .fill i k bs x => on i fun u => do
    let u ← u.reserve k
    let u ← u.pokePtr bs
    u.advance x
  | .addCstr i t => on i fun u => u.addCstr t
  | .addFmt i t => on i fun u => u.addFmt t
  | .cterm i => on i fun u => u.cterm
  | .rstrip i c => on i fun u => u.rstrip c

/-- (Driver.)  Run a sequence of operations, collecting what they hand out. -/
def uRun : List UOp → UState → Outcome (UState × List UOut)
  | [], s => ok (s, [])
  | op :: ops, s => do
    let (s, o) ← uStep op s
    let (s, os) ← uRun ops s
    ok (s, o :: os)

end Wdns
