import Verif.Spec.Name

/-!
# Specification: the grammar of domain names in text (RFC 1035 section 5.1)

`f` says what an unescaped character stands for: itself, or its lower-case form.
-/

namespace Wdns.Spec

/-- A decimal digit character. -/
def DigitChar (c : UInt8) : Prop := 48 ≤ c.toNat ∧ c.toNat ≤ 57

/-- The number written by three digits. -/
def three (d e g : UInt8) : Nat := 100 * (d.toNat - 48) + 10 * (e.toNat - 48) + (g.toNat - 48)

/-- The text of a label and its octets: characters other than `.` and `\`, `\X` for a character that is not a digit,
`\DDD` for an octet by its decimal value. -/
inductive LabelReads (f : UInt8 → UInt8) : List UInt8 → Label → Prop
  | nil : LabelReads f [] []
  | plain {c t l} : c ≠ 46 → c ≠ 92 → LabelReads f t l → LabelReads f (c :: t) (f c :: l)
  | esc {d t l} : ¬ DigitChar d → LabelReads f t l → LabelReads f (92 :: d :: t) (d :: l)
  | ddd {d e g t l} : DigitChar d → DigitChar e → DigitChar g → three d e g ≤ 255 → LabelReads f t l →
      LabelReads f (92 :: d :: e :: g :: t) (UInt8.ofNat (three d e g) :: l)

/-- One or more non-empty labels separated by dots; a dot may follow the last one. -/
inductive LabelsRead (f : UInt8 → UInt8) : List UInt8 → Name → Prop
  | one {t l} : LabelReads f t l → l ≠ [] → LabelsRead f t [l]
  | oneDot {t l} : LabelReads f t l → l ≠ [] → LabelsRead f (t ++ [46]) [l]
  | cons {t l s n} : LabelReads f t l → l ≠ [] → LabelsRead f s n → LabelsRead f (t ++ 46 :: s) (l :: n)

/-- The text of a name: the root is the empty text or a single dot. -/
def NameReads (f : UInt8 → UInt8) (s : List UInt8) (n : Name) : Prop :=
  ((s = [] ∨ s = [46]) ∧ n = []) ∨ LabelsRead f s n

end Wdns.Spec
