import Verif.Spec.Name

/-!
# Specification: where an uncompressed name goes wrong

Unlike `Reaches`, nothing here follows a pointer.
-/

namespace Wdns.Spec

/-- From offset `o` on, the octets are the labels `ls`, each after its length of 1 to 63; the next length octet is due at `o'`. -/
inductive Along (mem : List UInt8) : Nat → Name → Nat → Prop
  | here {o} : Along mem o [] o
  | label {o c ls o'} : mem[o]? = some c → 1 ≤ c.toNat → c.toNat ≤ 63 → o + 1 + c.toNat ≤ mem.length →
      Along mem (o + 1 + c.toNat) ls o' → Along mem o ((mem.drop (o + 1)).take c.toNat :: ls) o'

/-- Over whole labels, reading comes to the length octet `c` at `o`. -/
def DueAt (mem : List UInt8) (src : Nat) (ls : Name) (o : Nat) (c : UInt8) : Prop := Along mem src ls o ∧ mem[o]? = some c

/-- From offset `o` on, following length octets of 1 to 191 (`wdns_skip_name` does not reject those above 63), each of which stands at most at `eod`,
the next one is due at `o'`. -/
inductive Hops (mem : List UInt8) (eod : Nat) : Nat → Nat → Prop
  | here {o} : Hops mem eod o o
  | hop {o c o'} : o ≤ eod → mem[o]? = some c → 1 ≤ c.toNat → c.toNat ≤ 191 → Hops mem eod (o + 1 + c.toNat) o' → Hops mem eod o o'

/-- Where skipping the name at `data` ends: behind the zero octet or the pointer, or at the end `eod` of the data if that comes first. -/
def SkipsTo (mem : List UInt8) (data eod e : Nat) : Prop :=
  ∃ o, Hops mem eod data o ∧
    ((o ≤ eod ∧ mem[o]? = some 0 ∧ e = min (o + 1) eod) ∨
     (o ≤ eod ∧ (∃ c, mem[o]? = some c ∧ 192 ≤ c.toNat) ∧ e = min (o + 2) eod) ∨
     (eod < o ∧ e = eod))

end Wdns.Spec
