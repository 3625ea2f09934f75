import Verif.Spec.NameText

/-!
# Specification: the text `wdns_domain_to_str` writes for arbitrary octets
-/

namespace Wdns.Spec

/-- The octets of a name object, read as labels of any length up to a zero octet or up to the end of the octets (which can be inside of a label);
the number `k` is the sum of the sizes the length octets announce, `t` is the text, each label followed by a dot; `z` tells whether there was a zero octet. -/
inductive AnyText : List UInt8 → Nat → List UInt8 → Bool → Prop
  | used : AnyText [] 0 [] false
  | zero {s} : AnyText (0 :: s) 0 [] true
  | label {c : UInt8} {l s k t z} : c ≠ 0 → l.length = c.toNat → AnyText s k t z → AnyText (c :: (l ++ s)) (c.toNat + 1 + k) (labelText l ++ 46 :: t) z
  | cut {c : UInt8} {l} : c ≠ 0 → l.length < c.toNat → AnyText (c :: l) (c.toNat + 1) (labelText l ++ [46]) false

/-- The text as it is written: a single dot if there are no labels. -/
def dotted (t : List UInt8) : List UInt8 := if t = [] then [46] else t

end Wdns.Spec
