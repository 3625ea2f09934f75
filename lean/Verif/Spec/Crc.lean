import Verif.Basic
import Mathlib.Algebra.Polynomial.Basic
import Mathlib.Data.ZMod.Basic

/-!
# Specification: CRC-32C (RFC 3720, appendix B.4)

The octets are read as a polynomial over GF(2), lowest bit of each octet first; the first 32 bits are complemented; the remainder of that polynomial
times `X^32` on division by Castagnoli's polynomial 0x11EDC6F41, complemented, is the checksum; bit `i` of the checksum is the coefficient of
`X^(31-i)`.
-/

namespace Wdns.Spec
open Polynomial

/-- The bits of an octet, lowest first. -/
def octetBits (b : UInt8) : List Bool := (List.range 8).map b.toNat.testBit

/-- The bits of a message in the order in which they are sent. -/
def crcBits (bs : List UInt8) : List Bool := bs.flatMap octetBits

/-- A polynomial with these coefficients, the highest one first. -/
noncomputable def bitPoly : List Bool → (ZMod 2)[X]
  | [] => 0
  | b :: bs => (if b then X ^ bs.length else 0) + bitPoly bs

/-- Castagnoli's polynomial 0x11EDC6F41. -/
noncomputable def castagnoli : (ZMod 2)[X] :=
  X ^ 32 + X ^ 28 + X ^ 27 + X ^ 26 + X ^ 25 + X ^ 23 + X ^ 22 + X ^ 20 + X ^ 19 + X ^ 18 + X ^ 14 + X ^ 13 + X ^ 11 + X ^ 10 + X ^ 9 +
    X ^ 8 + X ^ 6 + 1

/-- The 32 bits of a checksum, lowest first. -/
def crcRegBits (c : Nat) : List Bool := (List.range 32).map c.testBit

/-- `c` is the CRC-32C of the octets `bs`: the bits of `c`, complemented, are the remainder of the message times `X^32`, with the first 32 bits of that
product complemented, i.e. with `X^31 + … + 1` times `X^n` added, `n` being the number of bits. -/
def IsCrc32c (bs : List UInt8) (c : Nat) : Prop :=
  c < 2 ^ 32 ∧
  castagnoli ∣ bitPoly ((crcRegBits c).map (!·)) - (X ^ 32 * bitPoly (crcBits bs) + X ^ (crcBits bs).length * bitPoly (List.replicate 32 true))

end Wdns.Spec
