import Verif.Basic

/-!
# Specification: address ranges

An address is the number its octets spell in network order.  The range of a prefix is the set of addresses that have the same first `len` bits.
-/

namespace Wdns.Spec

/-- The number that octets spell, the first octet being the highest. -/
def addrNum (os : List UInt8) : Nat := os.foldl (fun n o => n * 256 + o.toNat) 0

/-- Two addresses of `width` bits have the same first `len` bits. -/
def SamePrefix (width len x y : Nat) : Prop := x / 2 ^ (width - len) = y / 2 ^ (width - len)

/-- `l` is the lowest address of the range of `a`/`len`. -/
def IsLowest (width len a l : Nat) : Prop :=
  l < 2 ^ width ∧ SamePrefix width len a l ∧ ∀ x < 2 ^ width, SamePrefix width len a x → l ≤ x

/-- `u` is the highest address of the range of `a`/`len`. -/
def IsHighest (width len a u : Nat) : Prop :=
  u < 2 ^ width ∧ SamePrefix width len a u ∧ ∀ x < 2 ^ width, SamePrefix width len a x → x ≤ u

end Wdns.Spec
