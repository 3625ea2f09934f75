import Verif.Model.Libc
import Verif.Model.RRset
import Verif.Model.Ubuf

/-!
# Model: small headers of libmy

libmy/getenv_int.h, libmy/my_byteorder.h, libmy/ubuf-pb.h.
-/

namespace Wdns
open Outcome

/-- (C library.)  A digit of a number in base `b`. -/
def isDigitIn (b : Nat) (c : UInt8) : Bool := match hexDigitValue c with | some v => v < b | none => false

/-- (C library.)  The value of digits in base `b`. -/
def digitsValue (b : Nat) (ds : List UInt8) : Nat := ds.foldl (fun n c => n * b + (hexDigitValue c).getD 0) 0

/-- (C library.)  The sign in front of a number: whether it is `-`, and the rest. -/
def strtoulSign : List UInt8 → Bool × List UInt8
  | 45 :: t => (true, t)
  | 43 :: t => (false, t)
  | t => (false, t)

/-- (C library.)  The base of a number, if the argument for the base is 0, and its digits with what follows. -/
def strtoulBase : List UInt8 → Nat × List UInt8
  | 48 :: x :: d :: t => if (x = 120 ∨ x = 88) ∧ isDigitIn 16 d then (16, d :: t) else (8, 48 :: x :: d :: t)
  | 48 :: t => (8, 48 :: t)
  | t => (10, t)

/-- (C library.)  `strtoul(s, &t, 0)`: the value, and the text at `t`.  Values that are too large give `ULONG_MAX`; without digits the result is 0 and `t` is `s`.
(Before C23: no binary numbers.) -/
def strtoul0 (s : List UInt8) : Nat × List UInt8 :=
  let sg := strtoulSign (s.dropWhile isSpace)
  let bs := strtoulBase sg.2
  let ds := bs.2.takeWhile (isDigitIn bs.1)
  if ds = [] then (0, s)
  else
    let m := digitsValue bs.1 ds
    (if m ≥ 2 ^ 64 then 2 ^ 64 - 1 else if sg.1 then (2 ^ 64 - m) % 2 ^ 64 else m, bs.2.drop ds.length)

/-- `getenv_int` — libmy/getenv_int.h:8-20: the result and `*value`, which was `old`. -/
def getenvInt (env : Option (List UInt8)) (old : Nat) : Bool × Nat :=
  match env with
  | none => (false, old)
  | some s => (decide ((strtoul0 s).2 = []), (strtoul0 s).1)

/-- `my_bswap32` — libmy/my_byteorder.h:34-41. -/
def myBswap32 (x : UInt32) : UInt32 :=
  ((x <<< 24) &&& (0xff000000 : UInt32)) ||| ((x <<< 8) &&& (0x00ff0000 : UInt32)) ||| ((x >>> 8) &&& (0x0000ff00 : UInt32)) ||| ((x >>> 24) &&& (0x000000ff : UInt32))

/-- `my_htole32` and `my_le32toh` — libmy/my_byteorder.h:14-32; `le`: on a little-endian machine.  (If the C library has these functions, they are
used, and assumed to do the same.) -/
def myLe32 (le : Bool) (x : UInt32) : UInt32 := if le then x else myBswap32 x

/-- `ubuf_protobuf_c_buffer_append` — libmy/ubuf-pb.h:29-36. -/
def pbAppend (u : Ubuf) (data : List UInt8) : Outcome Ubuf := u.append (data.map some)

/-- (Driver: libprotobuf-c packs a message by calling the above for one piece after the other.) -/
def pbPack : Ubuf → List (List UInt8) → Outcome Ubuf
  | u, [] => ok u
  | u, d :: ds => do
    let u ← pbAppend u d
    pbPack u ds

end Wdns
