import Verif.Spec.Format

/-!
# Specification: the text forms of IPv4 and IPv6 addresses (RFC 4291 section 2.2)
-/

namespace Wdns.Spec

/-- The value of a hexadecimal numeral. -/
def hexNum (t : List UInt8) : Nat := t.foldl (fun v c => 16 * v + (hexVal c).getD 0) 0

/-- One to four hexadecimal digits, of either case. -/
def Group (t : List UInt8) : Prop := 1 ≤ t.length ∧ t.length ≤ 4 ∧ ∀ c ∈ t, hexVal c ≠ none

/-- The two octets of a group. -/
def groupOctets (t : List UInt8) : List UInt8 := [UInt8.ofNat (hexNum t / 256), UInt8.ofNat (hexNum t % 256)]

/-- Groups separated by colons, and their octets. -/
inductive Groups : List UInt8 → List UInt8 → Prop
  | one {g} : Group g → Groups g (groupOctets g)
  | cons {g t f} : Group g → Groups t f → Groups (g ++ 58 :: t) (groupOctets g ++ f)

/-- Groups separated by colons; a dotted quad may stand for the last two groups. -/
inductive Groups4 : List UInt8 → List UInt8 → Prop
  | groups {t f} : Groups t f → Groups4 t f
  | quad {a b c d} : Groups4 (dottedQuad a b c d) [a, b, c, d]
  | both {t f a b c d} : Groups t f → Groups4 (t ++ 58 :: dottedQuad a b c d) (f ++ [a, b, c, d])

/-- The text of an IPv6 address: eight groups, or fewer with one `::` in place of at least one group of zeros. -/
inductive Ip6Reads : List UInt8 → List UInt8 → Prop
  | full {t f} : Groups4 t f → f.length = 16 → Ip6Reads t f
  | short {l lf r rf} : (l = [] ∧ lf = []) ∨ Groups l lf → (r = [] ∧ rf = []) ∨ Groups4 r rf → lf.length + rf.length < 16 →
      Ip6Reads (l ++ [58, 58] ++ r) (lf ++ List.replicate (16 - lf.length - rf.length) 0 ++ rf)

/-- The text of an IPv4 address: four decimal numbers up to 255 without superfluous zeros. -/
def Ip4Reads (t f : List UInt8) : Prop := ∃ a b c d, t = dottedQuad a b c d ∧ f = [a, b, c, d]

end Wdns.Spec
