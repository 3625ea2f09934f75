import Verif.Basic

/-!
# Model: libmy/ip_arith.h

The header is part of the repository but not included by the library.  The functions copy the octets of an address into integers and combine them
with masks converted by `htobe32`/`htobe64` (or convert the integers): the effect on the octets is that of the operation on the numbers they spell
in network order, whatever the byte order of the machine, and the model computes with these numbers.
-/

namespace Wdns
open Outcome

/-- The number in `n` octets at `p`: `memcpy` and `be32toh`/`be64toh`. -/
def beLoad (mem : List UInt8) (p n : Nat) : Outcome Nat := do
  let os ← rdN mem p n
  ok (os.foldl (fun v o => (v <<< 8) ||| o.toNat) 0)

/-- `n` octets of a number: `htobe32`/`htobe64` and `memcpy`. -/
def beStore : Nat → Nat → List UInt8
  | 0, _ => []
  | n + 1, v => UInt8.ofNat (v >>> (8 * n)) :: beStore n v

/-- `1 << (32 - prefix_len)` with the type `int` — libmy/ip_arith.h:37, 47: the count is `unsigned`; a count above 31 is undefined, and so is a value that
`int` cannot hold. -/
def intOneShl (prefixLen : Nat) : Outcome Nat :=
  let k := (2 ^ 32 + 32 - prefixLen) % 2 ^ 32
  if k ≥ 31 then ub else ok (2 ^ k)

/-- `ip4_lower` — libmy/ip_arith.h:33-39: the four octets written to `out`. -/
def ip4Lower (address : List UInt8) (prefixLen : Nat) : Outcome (List UInt8) := do
  let addr ← beLoad address 0 4
  let b ← intOneShl prefixLen
  let mask := (2 ^ 32 - 1) - (b - 1)                                     -- `~` of an int, as uint32_t
  ok (beStore 4 (addr &&& mask))

/-- `ip4_upper` — libmy/ip_arith.h:43-49. -/
def ip4Upper (address : List UInt8) (prefixLen : Nat) : Outcome (List UInt8) := do
  let addr ← beLoad address 0 4
  let b ← intOneShl prefixLen
  ok (beStore 4 (addr ||| (b - 1)))

/-- `ip4_incr` — libmy/ip_arith.h:52-59. -/
def ip4Incr (address : List UInt8) : Outcome (List UInt8) := do
  let addr ← beLoad address 0 4
  ok (beStore 4 ((addr + 1) % 2 ^ 32))

/-- `((1ULL << prefix_len) - 1ULL) << (64ULL - prefix_len)` — libmy/ip_arith.h:68, 73, 90, 95, for `prefix_len < 64`: a shift by 64 is undefined. -/
def mask64 (prefixLen : Nat) : Outcome Nat :=
  if 64 - prefixLen ≥ 64 then ub else ok ((((1 <<< prefixLen) - 1) <<< (64 - prefixLen)) % 2 ^ 64)

/-- `ip6_lower` — libmy/ip_arith.h:63-81. -/
def ip6Lower (address : List UInt8) (prefixLen : Nat) : Outcome (List UInt8) := do
  let (m0, m1) ←
    if prefixLen < 64 then do
      let m ← mask64 prefixLen
      ok (m, 0)
    else if prefixLen < 128 then do
      let m ← mask64 (prefixLen - 64)
      ok (2 ^ 64 - 1, m)
    else ok (2 ^ 64 - 1, 2 ^ 64 - 1)
  let a0 ← beLoad address 0 8
  let a1 ← beLoad address 8 8
  ok (beStore 8 (a0 &&& m0) ++ beStore 8 (a1 &&& m1))

/-- `ip6_upper` — libmy/ip_arith.h:85-103. -/
def ip6Upper (address : List UInt8) (prefixLen : Nat) : Outcome (List UInt8) := do
  let (m0, m1) ←
    if prefixLen < 64 then do
      let m ← mask64 prefixLen
      ok (2 ^ 64 - 1 - m, 2 ^ 64 - 1)
    else if prefixLen < 128 then do
      let m ← mask64 (prefixLen - 64)
      ok (0, 2 ^ 64 - 1 - m)
    else ok (0, 0)
  let a0 ← beLoad address 0 8
  let a1 ← beLoad address 8 8
  ok (beStore 8 (a0 ||| m0) ++ beStore 8 (a1 ||| m1))

/-- `ip6_incr` — libmy/ip_arith.h:106-121. -/
def ip6Incr (address : List UInt8) : Outcome (List UInt8) := do
  let a0 ← beLoad address 0 8
  let a1 ← beLoad address 8 8
  if a1 = 2 ^ 64 - 1 then ok (beStore 8 ((a0 + 1) % 2 ^ 64) ++ beStore 8 0)
  else ok (beStore 8 a0 ++ beStore 8 (a1 + 1))

end Wdns
