import Verif.Basic

/-!
# Model: variable-length integers — libmy/varint.c

The file is part of the repository but not compiled into the library.  `uint32_t`, `uint64_t` and `unsigned` values are natural numbers;
arithmetic that can leave the range of its C type is reduced explicitly.

`data[4] << 28` (libmy/varint.c:158) shifts an `int`; ISO C leaves it undefined when the result exceeds `INT_MAX`, GCC defines it as the
result modulo 2^32.  The parameter `iso` selects: `true` makes it `ub`.
-/

namespace Wdns
open Outcome

/-- `varint_length` — libmy/varint.c:77-86. -/
def varintLength (v : Nat) : Nat :=
  if v ≥ 128 then varintLength (v >>> 7) + 1 else 1
termination_by v
decreasing_by simp only [Nat.shiftRight_eq_div_pow]; omega

/-- The loop of `varint_length_packed` — libmy/varint.c:93-97: `i` when it ends, `len` octets being left. -/
def packedLoop (data : List UInt8) : Nat → Nat → Outcome Nat
  | 0, i => ok i
  | len + 1, i => do
    let c ← rd data i
    if c.toNat &&& 0x80 = 0 then ok i else packedLoop data len (i + 1)

/-- `varint_length_packed` — libmy/varint.c:88-101. -/
def varintLengthPacked (data : List UInt8) (lenData : Nat) : Outcome Nat := do
  let i ← packedLoop data lenData 0
  if i = lenData then ok 0 else ok (i + 1)

/-- The octet stored by an assignment to a `uint8_t`. -/
def oct (v : Nat) : UInt8 := UInt8.ofNat (v % 256)

/-- `varint_encode32` — libmy/varint.c:103-130: the octets written. -/
def varintEncode32 (v : Nat) : List UInt8 :=
  if v < 1 <<< 7 then [oct v]
  else if v < 1 <<< 14 then [oct (v ||| 128), oct (v >>> 7)]
  else if v < 1 <<< 21 then [oct (v ||| 128), oct (v >>> 7 ||| 128), oct (v >>> 14)]
  else if v < 1 <<< 28 then [oct (v ||| 128), oct (v >>> 7 ||| 128), oct (v >>> 14 ||| 128), oct (v >>> 21)]
  else [oct (v ||| 128), oct (v >>> 7 ||| 128), oct (v >>> 14 ||| 128), oct (v >>> 21 ||| 128), oct (v >>> 28)]

/-- `varint_encode64` — libmy/varint.c:132-143: the octets written. -/
def varintEncode64 (v : Nat) : List UInt8 :=
  if v ≥ 128 then oct ((v &&& 127) ||| 128) :: varintEncode64 (v >>> 7) else [oct v]
termination_by v
decreasing_by simp only [Nat.shiftRight_eq_div_pow]; omega

/-- `varint_decode32` — libmy/varint.c:145-163: the value and the length returned. -/
def varintDecode32 (iso : Bool) (data : List UInt8) : Outcome (Nat × Nat) := do
  let len ← varintLengthPacked data 5
  let c0 ← rd data 0
  let val := c0.toNat &&& 0x7f
  if len > 1 then
    let c1 ← rd data 1
    let val := val ||| ((c1.toNat &&& 0x7f) <<< 7)
    if len > 2 then
      let c2 ← rd data 2
      let val := val ||| ((c2.toNat &&& 0x7f) <<< 14)
      if len > 3 then
        let c3 ← rd data 3
        let val := val ||| ((c3.toNat &&& 0x7f) <<< 21)
        if len > 4 then
          let c4 ← rd data 4
          if iso = true ∧ c4.toNat <<< 28 ≥ 2 ^ 31 then ub
          else ok (val ||| (c4.toNat <<< 28) % 2 ^ 32, len)
        else ok (val, len)
      else ok (val, len)
    else ok (val, len)
  else ok (val, len)

/-- The loop of `varint_decode64` — libmy/varint.c:183-186, `n` octets being left; the result is kept in a `uint64_t`. -/
def decode64Loop (data : List UInt8) : Nat → Nat → Nat → Nat → Outcome Nat
  | 0, _, _, val => ok val
  | n + 1, i, shift, val => do
    let c ← rd data i
    decode64Loop data n (i + 1) (shift + 7) (val ||| ((c.toNat &&& 0x7f) <<< shift) % 2 ^ 64)

/-- `varint_decode64` — libmy/varint.c:165-189. -/
def varintDecode64 (iso : Bool) (data : List UInt8) : Outcome (Nat × Nat) := do
  let len ← varintLengthPacked data 10
  if len < 5 then varintDecode32 iso data
  else
    let c0 ← rd data 0
    let c1 ← rd data 1
    let c2 ← rd data 2
    let c3 ← rd data 3
    let val := (c0.toNat &&& 0x7f) ||| ((c1.toNat &&& 0x7f) <<< 7) ||| ((c2.toNat &&& 0x7f) <<< 14) ||| ((c3.toNat &&& 0x7f) <<< 21)
    let val ← decode64Loop data (len - 4) 4 28 val
    ok (val, len)

end Wdns
