/-!
# Specification: variable-length integers

Seven bits per octet, the least significant first; every octet but the last has its top bit set.
-/

namespace Wdns.Spec

/-- The octets are one variable-length integer: all but the last are 128 or more. -/
inductive IsVarint : List UInt8 → Prop
  | last {c : UInt8} : c.toNat < 128 → IsVarint [c]
  | more {c : UInt8} {cs : List UInt8} : 128 ≤ c.toNat → IsVarint cs → IsVarint (c :: cs)

/-- The number it stands for. -/
def varintValue : List UInt8 → Nat
  | [] => 0
  | c :: cs => c.toNat % 128 + 128 * varintValue cs

/-- It has no superfluous octets: the last one is not zero, unless it is the only one. -/
def Shortest (bs : List UInt8) : Prop := bs.length = 1 ∨ bs.getLast? ≠ some 0

end Wdns.Spec
