import Verif.Spec.Name
import Verif.Model.Name

/-!
# Specification: what an arbitrary name object holds
-/

namespace Wdns.Spec

/-- The octets of the name object are, from the first on, labels of 1 to 63 octets up to a zero octet, which is at the latest the octet
just behind the name. -/
def Spells (c : CName) (n : Name) : Prop :=
  (∀ l ∈ n, LabelOK l) ∧ wire n <+: c.data ∧ (wire n).length ≤ c.len + 1

/-- Length octets and as many octets after each, up to the end of the list, without a zero length octet. -/
inductive Chain : List UInt8 → List (List UInt8) → Prop
  | nil : Chain [] []
  | cons {c : UInt8} {l rest ls} : c ≠ 0 → l.length = c.toNat → Chain rest ls → Chain (c :: l ++ rest) ((c :: l) :: ls)

end Wdns.Spec
