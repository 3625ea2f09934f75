import Verif.Spec.NameGrammar
import Verif.Spec.ScanSafe
import Verif.Spec.RdataText

/-!
# Specification: the grammar of character strings in text (RFC 1035 section 5.1)
-/

namespace Wdns.Spec

/-- The characters of a character string and the octets they stand for: printable ASCII for itself, `\"` and `\\`, `\DDD`.
Between quotes (`q`) a plain `"` is not a character of the string; without quotes a plain space is not. -/
inductive CharsRead (q : Bool) : List UInt8 → List UInt8 → Prop
  | nil : CharsRead q [] []
  | plain {c t w} : 32 ≤ c.toNat → c.toNat ≤ 126 → c ≠ 92 → (q = true → c ≠ 34) → (q = false → c ≠ 32) → CharsRead q t w →
      CharsRead q (c :: t) (c :: w)
  | esc {d t w} : d = 34 ∨ d = 92 → CharsRead q t w → CharsRead q (92 :: d :: t) (d :: w)
  | ddd {d e g t w} : DigitChar d → DigitChar e → DigitChar g → three d e g ≤ 255 → CharsRead q t w →
      CharsRead q (92 :: d :: e :: g :: t) (UInt8.ofNat (three d e g) :: w)

/-- `s` starts with a character string that stands for the octets `w`, and `rest` follows it: either in quotes, or without
quotes, at least one character long and up to the next white space. -/
inductive StringReads : List UInt8 → List UInt8 → List UInt8 → Prop
  | quoted {t w rest} : CharsRead true t w → StringReads (34 :: t ++ 34 :: rest) w rest
  | bare {t w rest} : CharsRead false t w → t ≠ [] → t.head? ≠ some 34 → (∀ c, rest.head? = some c → IsBlank c) →
      StringReads (t ++ rest) w rest

/-- A text that lists character strings of at most 255 octets. -/
inductive TxtReads : List UInt8 → List (List UInt8) → Prop
  | nil : TxtReads [] []
  | blank {c s ws} : IsBlank c → TxtReads s ws → TxtReads (c :: s) ws
  | cons {s w rest ws} : (∀ c, s.head? = some c → ¬ IsBlank c) → StringReads s w rest → w.length ≤ 255 → TxtReads rest ws →
      TxtReads s (w :: ws)

/-- A word: not empty, without white space. -/
def IsWord (s : List UInt8) : Prop := s ≠ [] ∧ ∀ c ∈ s, ¬ IsBlank c

end Wdns.Spec
