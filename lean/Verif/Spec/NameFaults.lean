import Verif.Spec.NameGrammar

/-!
# Specification: what is wrong with a text that is not a name

A text is read from left to right.  `BeginsAs f t n l`: the text `t` consists of the complete labels `n`, a dot after each of them, and of
the characters of a further label, `l` so far.
-/

namespace Wdns.Spec

/-- The labels that a text begins with, and the label it breaks off in. -/
inductive BeginsAs (f : UInt8 → UInt8) : List UInt8 → Name → Label → Prop
  | inside {t l} : LabelReads f t l → BeginsAs f t [] l
  | dot {t l s n m} : LabelReads f t l → l ≠ [] → BeginsAs f s n m → BeginsAs f (t ++ 46 :: s) (l :: n) m

/-- The octets that have been used for these labels in wire form: the length octet of the label that has been begun is one of them. -/
def octetsUsed (n : Name) (l : Label) : Nat := (n.map (·.length + 1)).sum + 1 + l.length

/-- What cannot follow in a label of which `l` has been read: a dot if the label is still empty, or a backslash and a digit that are not
the beginning of `\DDD` with a value of at most 255. -/
def CannotFollow (l : Label) (rest : List UInt8) : Prop :=
  (l = [] ∧ ∃ r, rest = 46 :: r) ∨
  (∃ d r, rest = 92 :: d :: r ∧ DigitChar d ∧ ¬ ∃ e g r', r = e :: g :: r' ∧ DigitChar e ∧ DigitChar g ∧ three d e g ≤ 255)

/-- The text has a first fault, a wrong character sequence, in front of which the name fits. -/
def Malformed (f : UInt8 → UInt8) (s : List UInt8) : Prop :=
  ∃ t rest n l, s = t ++ rest ∧ BeginsAs f t n l ∧ octetsUsed n l < 255 ∧ CannotFollow l rest

/-- The text begins with labels that use up all 255 octets, without a place for the zero octet of the root: the text goes on, or it ends inside of a
label. -/
def TooLong (f : UInt8 → UInt8) (s : List UInt8) : Prop :=
  ∃ t rest n l, s = t ++ rest ∧ BeginsAs f t n l ∧ octetsUsed n l = 255 ∧ (rest = [] → l ≠ [])

/-- The text ends in a backslash that escapes nothing, and is right in front of it. -/
def EndsEscaping (f : UInt8 → UInt8) (s : List UInt8) : Prop :=
  ∃ t n l, s = t ++ [92] ∧ BeginsAs f t n l ∧ octetsUsed n l < 255

end Wdns.Spec
