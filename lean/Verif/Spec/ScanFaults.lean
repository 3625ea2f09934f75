import Verif.Spec.ScanGrammar
import Verif.Spec.NameFaults

/-!
# Specification: which texts cannot be read, and why

`FieldReads`, `Scanned` and `GenericReads` (Spec/ScanGrammar.lean) say which texts are read.  Here: on which texts the reader leaves the text or uses a value it
has not read, and which are rejected because a name is too long.
-/

namespace Wdns.Spec

/-- Service parameters, the first of which that is not in order is an `ech` with a `{` in its value. -/
inductive SvcBrace : List UInt8 → Prop
  | space {s} : SvcBrace s → SvcBrace (32 :: s)
  | flag {key s} : 61 ∉ key → 32 ∉ key → KeyReads key 2 → (∀ c, s.head? = some c → c = 32) → SvcBrace s → SvcBrace (key ++ s)
  | param {key s x rest k v n} : 61 ∉ key → 32 ∉ key → KeyReads key k → k ≠ 2 → StringReads s x rest → ValueReads k x v n → SvcBrace rest →
      SvcBrace (key ++ 61 :: s)
  | ech {key s x rest tok} : 61 ∉ key → 32 ∉ key → KeyReads key 5 → StringReads s x rest → (pieces 32 (cText x)).head? = some tok → tok.length ≤ 255 → 123 ∈ tok →
      SvcBrace (key ++ 61 :: s)

/-- A field, at the start of `s` (which does not start with white space), whose reading is not defined. -/
inductive FieldUndefined : Rdf → List UInt8 → Prop
  /-- A name whose last backslash escapes nothing: the octets behind the word are read. -/
  | name {t s tok rest} : t = .name ∨ t = .uname → Word s tok rest → EndsEscaping id tok → FieldUndefined t s
  /-- Base64 with a `{`: the table is read behind its end. -/
  | bytesB64 {s} : 123 ∈ s → FieldUndefined .bytesB64 s
  /-- Hexadecimal digits and then at least two characters of white space: no digit is read. -/
  | bytes {s w rest} : HexPairs s w rest → 2 ≤ rest.length → (∀ c ∈ rest, IsBlank c) → FieldUndefined .bytes s
  /-- The same inside of a salt, by a vertical tab or a form feed. -/
  | salt {s tok rest w rest'} : Word s tok rest → tok ≠ [45] → tok.length ≤ 510 → tok.length % 2 = 0 → HexPairs s w rest' → 2 * w.length < tok.length →
      (∀ c ∈ rest', IsBlank c) → FieldUndefined .salt s
  | svcparams {s} : SvcBrace s → FieldUndefined .svcparams s

/-- A name field whose text has too many octets. -/
def FieldTooLong (t : Rdf) (s : List UInt8) : Prop := (t = .name ∨ t = .uname) ∧ ∃ tok rest, Word s tok rest ∧ TooLong id tok

/-- The text `s` is read as fields of the types `ts`, up to one of which `P` holds. -/
inductive UpTo (P : Rdf → List UInt8 → Prop) : List Rdf → List UInt8 → Prop
  | here {t ts b s} : (∀ c ∈ b, IsBlank c) → s ≠ [] → (∀ c, s.head? = some c → ¬ IsBlank c) → P t s → UpTo P (t :: ts) (b ++ s)
  | later {t ts b s f rest} : (∀ c ∈ b, IsBlank c) → s ≠ [] → (∀ c, s.head? = some c → ¬ IsBlank c) → FieldReads t s f rest → UpTo P ts rest →
      UpTo P (t :: ts) (b ++ s)

/-- Reading `s` as an rdata of this type and class is not defined: a field is not (known types); or `\#` is followed by white space only (other types). -/
def TextUndefined (ty cls : Nat) (s : List UInt8) : Prop :=
  (∃ d, recordDescr ty = some d ∧ d.applies cls = true ∧ UpTo FieldUndefined d.types s) ∨
  (recordDescr ty = none ∧ ∃ b, s = ascii "\\#" ++ b ∧ b ≠ [] ∧ ∀ c ∈ b, IsBlank c)

/-- A name in `s` is too long, and everything in front of it is right. -/
def TextTooLong (ty cls : Nat) (s : List UInt8) : Prop :=
  ∃ d, recordDescr ty = some d ∧ d.applies cls = true ∧ UpTo FieldTooLong d.types s

end Wdns.Spec
