import Verif.Spec.Name

/-!
# Specification: what is wrong with an encoded name

`mem` holds a message and the one octet behind it, which the decoder may look at (C02).
-/

namespace Wdns.Spec

/-- Reading the name at `src` leads, over the labels `ls` and compression pointers that point backwards, to the octet `c` at `o`, where a label or a
pointer should begin; so far the name fits. -/
def ComesTo (mem : List UInt8) (base src : Nat) (ls : Name) (o : Nat) (c : UInt8) : Prop :=
  Reaches mem base src ls o ∧ (wire ls).length ≤ 255 ∧ mem[o]? = some c

/-- The octet is neither a length nor the first half of a pointer. -/
def BadOctet (mem : List UInt8) (base src : Nat) : Prop :=
  ∃ ls o c, ComesTo mem base src ls o c ∧ 64 ≤ c.toNat ∧ c.toNat ≤ 191

/-- A pointer that does not point backwards. -/
def BadPointer (mem : List UInt8) (base src : Nat) : Prop :=
  ∃ ls o hi lo, ComesTo mem base src ls o hi ∧ 192 ≤ hi.toNat ∧ mem[o + 1]? = some lo ∧ o ≤ base + ((hi.toNat % 64) * 256 + lo.toNat)

/-- With the label that begins here, the name has more than 255 octets. -/
def NameTooLong (mem : List UInt8) (base src : Nat) : Prop :=
  ∃ ls o c, ComesTo mem base src ls o c ∧ 1 ≤ c.toNat ∧ c.toNat ≤ 63 ∧ 255 < (wire ls).length + 1 + c.toNat

/-- The message ends inside of a label that would fit, or the second half of a pointer is missing. -/
def CutOff (mem : List UInt8) (base src : Nat) : Prop :=
  ∃ ls o c, ComesTo mem base src ls o c ∧
    ((192 ≤ c.toNat ∧ o + 1 = mem.length) ∨
     (1 ≤ c.toNat ∧ c.toNat ≤ 63 ∧ (wire ls).length + 1 + c.toNat ≤ 255 ∧ mem.length ≤ o + 1 + c.toNat))

/-- The fault and the result code that names it. -/
def NameFault (mem : List UInt8) (base src : Nat) (e : Res) : Prop :=
  (e = .invalidLengthOctet ∧ BadOctet mem base src) ∨ (e = .invalidCompressionPointer ∧ BadPointer mem base src) ∨
  (e = .nameOverflow ∧ NameTooLong mem base src) ∨ (e = .outOfBounds ∧ CutOff mem base src)

end Wdns.Spec
