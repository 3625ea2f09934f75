import Verif.Basic

/-!
# Model: small helpers of libmy

libmy/string_replace.h, read_bytes.h, print_string.h, my_time.h, my_rate.c, threadnum.c.  They are part of the repository but not used by the library.
-/

namespace Wdns
open Outcome

/-! ## libmy/string_replace.h -/

/-- `strstr(h, n)`: offset of the first occurrence. -/
def strstr : List UInt8 → List UInt8 → Option Nat
  | [], n => if n = [] then some 0 else none
  | c :: h, n => if n <+: c :: h then some 0 else (strstr h n).map (· + 1)

/-- The loop and the final append — libmy/string_replace.h:38-48.  `str` is the text from the current position on; `end` is one behind its NUL. -/
def srLoop (old new : List UInt8) : Nat → List UInt8 → List UInt8 → Outcome (List UInt8)
  | 0, _, _ => hang
  | fuel + 1, str, u =>
    match strstr str old with
    | none => ok (u ++ str)
    | some off =>
      let u := u ++ str.take off ++ new
      let str := str.drop off
      if old.length ≥ str.length + 1 then ok (u ++ str)
      else srLoop old new fuel (str.drop old.length) u

/-- `string_replace` — libmy/string_replace.h:24-53.  The fuel is enough for every text unless the loop does not advance. -/
def stringReplace (str old new : List UInt8) : Outcome (List UInt8) :=
  match strstr str old with
  | none => ok str
  | some _ => srLoop old new (str.length + 1) str []

/-! ## libmy/read_bytes.h -/

/-- What a `read(2)` finds: an interruption, an error, the end of the file, or octets that are available. -/
inductive ReadEv
  | intr
  | fail
  | eof
  | data (d : List UInt8)
  deriving DecidableEq, Repr

/-- `read_bytes` — libmy/read_bytes.h:9-24.  `evs` is what the successive calls find; a call for `need` octets takes at most `need` of those that are
available and leaves the others.  `evs` used up: the call blocks.  `cap` is the size of the buffer behind `buf`.  Result: return value, octets
written, what is left to read. -/
def readBytes (cap : Nat) : List ReadEv → Nat → List UInt8 → Outcome (Bool × List UInt8 × List ReadEv)
  | evs, 0, buf => ok (true, buf, evs)
  | [], _ + 1, _ => hang
  | .intr :: evs, need + 1, buf => readBytes cap evs (need + 1) buf
  | .fail :: evs, _ + 1, buf => ok (false, buf, evs)
  | .eof :: evs, _ + 1, buf => ok (false, buf, evs)
  | .data d :: evs, need + 1, buf =>
    if d = [] then ok (false, buf, evs)                       -- a read of no octets is the end of the file
    else if buf.length + min d.length (need + 1) > cap then ub
    else if d.length ≤ need + 1 then readBytes cap evs (need + 1 - d.length) (buf ++ d)
    else ok (true, buf ++ d.take (need + 1), .data (d.drop (need + 1)) :: evs)
  termination_by evs => evs.length

/-! ## libmy/print_string.h -/

/-- A lower-case hexadecimal digit, as `%x` prints it. -/
def hexDig (n : Nat) : UInt8 := if n < 10 then UInt8.ofNat (48 + n) else UInt8.ofNat (87 + n)

/-- One turn of the loop — libmy/print_string.h:29-39: what is printed for an octet (`isprint` in the C locale). -/
def psByte (c : UInt8) : List UInt8 :=
  if 32 ≤ c.toNat ∧ c.toNat ≤ 126 then
    if c.toNat = 34 then [92, 34] else [c]
  else [92, 120, hexDig (c.toNat / 16), hexDig (c.toNat % 16)]

/-- `print_string` — libmy/print_string.h:24-41. -/
def printString (s : List UInt8) : List UInt8 := [34] ++ s.flatMap psByte ++ [34]

/-! ## libmy/my_time.h, my_rate.c -/

/-- `struct timespec` with 64-bit members. -/
structure Timespec where
  sec : Int
  nsec : Int
  deriving DecidableEq, Repr

/-- The result of a signed 64-bit operation; overflow is undefined. -/
def i64 (v : Int) : Outcome Int := if -2 ^ 63 ≤ v ∧ v < 2 ^ 63 then ok v else ub

/-- The loop of `my_timespec_add` and `calc_next_tick` — libmy/my_time.h:36-39, my_rate.c:54-57. -/
def tsCarry : Nat → Timespec → Outcome Timespec
  | 0, _ => hang
  | fuel + 1, t =>
    if t.nsec ≥ 1000000000 then do
      let s ← i64 (t.sec + 1)
      tsCarry fuel ⟨s, t.nsec - 1000000000⟩
    else ok t

/-- `my_timespec_add` — libmy/my_time.h:32-40: adds `a` to `b`. -/
def tsAdd (a b : Timespec) : Outcome Timespec := do
  let s ← i64 (b.sec + a.sec)
  let n ← i64 (b.nsec + a.nsec)
  tsCarry (n.toNat / 1000000000 + 1) ⟨s, n⟩

/-- `my_timespec_sub` — libmy/my_time.h:42-51: subtracts `a` from `b`. -/
def tsSub (a b : Timespec) : Outcome Timespec := do
  let s ← i64 (b.sec - a.sec)
  let n ← i64 (b.nsec - a.nsec)
  if n < 0 then do
    let s ← i64 (s - 1)
    let n ← i64 (n + 1000000000)
    ok ⟨s, n⟩
  else ok ⟨s, n⟩

/-- `ts_nanos` — libmy/my_rate.c:31-35. -/
def tsNanos (t : Timespec) : Outcome Int := do
  let a ← i64 (t.sec * 1000000000)
  i64 (a + t.nsec)

/-- The arithmetic on one member — libmy/my_rate.c:43-46 and :47-52; `z` is the value when the period's member is not positive; `%` truncates towards
zero. -/
def tickPart (v m z : Int) : Outcome Int :=
  if m > 0 then do
    let s ← i64 (v - v.tmod m)
    i64 (s + m)
  else ok z

/-- `calc_next_tick` — libmy/my_rate.c:37-60. -/
def calcNextTick (t m : Timespec) : Outcome Timespec := do
  let s ← tickPart t.sec m.sec t.sec
  let n ← tickPart t.nsec m.nsec 0
  tsCarry (n.toNat / 1000000000 + 1) ⟨s, n⟩

/-- `struct my_rate` — libmy/my_rate.c:25-29, without the members that only the floating-point part reads (`adj_rate`, `rate`). -/
structure Rate where
  nextTick : Timespec
  period : Timespec
  start : Timespec
  count : Nat
  freq : Nat
  deriving DecidableEq, Repr

/-- The first call — libmy/my_rate.c:152-155. -/
def rateStart (r : Rate) (now : Timespec) : Outcome Rate :=
  if r.count = 1 then do
    let k ← calcNextTick now r.period
    ok { r with start := now, nextTick := k }
  else ok r

/-- `adjust_rate` and its condition — libmy/my_rate.c:161-162, 62-93.  `adj` is the period that its floating-point arithmetic gives, which is not
modelled, except that it is undefined when no time has passed since the first call. -/
def rateAdjust (r : Rate) (now adj : Timespec) : Outcome Rate :=
  if r.freq ≠ 0 ∧ r.count % r.freq = 0 ∧ r.count > r.freq then do
    let e ← tsSub r.start now
    let ns ← tsNanos e
    if ns = 0 then ub                                                   -- line 76: `count / 0.0` is infinite, its conversion to `unsigned` undefined
    else ok { r with period := adj }
  else ok r

/-- `my_rate_sleep` — libmy/my_rate.c:123-186, with `clock_nanosleep`.  `now` is what the clock shows at the call and `wake` what it shows after the sleep.
Result: whether, and until when, it sleeps, and the new state.  `count` is a `uint64_t`. -/
def rateSleep (r : Rate) (now wake adj : Timespec) : Outcome (Option Timespec × Rate) := do
  let r ← rateStart { r with count := (r.count + 1) % 2 ^ 64 } now
  let r ← rateAdjust r now adj
  let til ← tsSub now r.nextTick
  let ns ← tsNanos til
  let next ← calcNextTick (if ns > 0 then wake else now) r.period
  ok (if ns > 0 then some r.nextTick else none, { r with nextTick := next })

/-! ## libmy/threadnum.c -/

/-- A thread in `my_threadnum_register` — libmy/threadnum.c:9-15: outside, waiting for the lock, before `threadnum = next_threadnum`, before
`next_threadnum += 1`, before the unlock. -/
inductive TnPc
  | out
  | lock
  | take
  | bump
  | unlock
  deriving DecidableEq, Repr

/-- The static variables, and of every thread its position, the value of its `threadnum` and whether it has registered. -/
structure TnState where
  owner : Option Nat
  next : Nat
  pc : Nat → TnPc
  num : Nat → Nat
  reg : Nat → Bool

/-- Program start: `next_threadnum` and all the thread-local `threadnum` are 0. -/
def tnInit : TnState := ⟨none, 0, fun _ => .out, fun _ => 0, fun _ => false⟩

/-- One step of thread `i`, `none` if it is blocked; `next_threadnum` is an `int`. -/
def tnStep (s : TnState) (i : Nat) : Outcome (Option TnState) :=
  match s.pc i with
  | .out => ok (some { s with pc := fun j => if j = i then .lock else s.pc j })
  | .lock =>
    if s.owner = none then ok (some { s with owner := some i, pc := fun j => if j = i then .take else s.pc j }) else ok none
  | .take => ok (some { s with num := fun j => if j = i then s.next else s.num j, pc := fun j => if j = i then .bump else s.pc j })
  | .bump =>
    if s.next + 1 ≥ 2 ^ 31 then ub
    else ok (some { s with next := s.next + 1, pc := fun j => if j = i then .unlock else s.pc j })
  | .unlock =>
    ok (some { s with owner := none, reg := fun j => if j = i then true else s.reg j, pc := fun j => if j = i then .out else s.pc j })

end Wdns
