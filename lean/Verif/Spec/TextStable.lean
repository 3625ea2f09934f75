import Verif.Spec.ScanGrammar

/-!
# Specification: rdata texts that the library accepts although what they denote does not come back

Each constructor is one way to write such a text; `Spec/ScanGrammar.lean` says what the parts of a text are.
-/

namespace Wdns.Spec

/-- A list of service parameters of which one is irregular: an `alpn` value that ends with an empty protocol id or has one of more than
255 octets (its length is then wrong on the wire), or an `ech` value that is empty or longer than 189 octets (its text cannot be read). -/
inductive SvcIrregular : List UInt8 → Prop
  | space {s} : SvcIrregular s → SvcIrregular (32 :: s)
  | flag {key s} : 61 ∉ key → 32 ∉ key → KeyReads key 2 → SvcIrregular s → SvcIrregular (key ++ s)
  | param {key s x rest k v n} : 61 ∉ key → 32 ∉ key → KeyReads key k → k ≠ 2 → StringReads s x rest → ValueReads k x v n →
      SvcIrregular rest → SvcIrregular (key ++ 61 :: s)
  | alpn {key s x rest ids} : 61 ∉ key → 32 ∉ key → KeyReads key 1 → StringReads s x rest → AlpnReads x ids →
      (ids.getLast? = some [] ∨ ∃ i ∈ ids, 255 < i.length) → SvcIrregular (key ++ 61 :: s)
  | ech {key s x rest v n} : 61 ∉ key → 32 ∉ key → KeyReads key 5 → StringReads s x rest → ValueReads 5 x v n →
      (v = [] ∨ 189 < v.length) → SvcIrregular (key ++ 61 :: s)

/-- A text for fields of the given types that has an irregular field: a domain name with a label of more than 63 octets, irregular
service parameters, or an IPv6 prefix (A6) of length 128 after which the name is missing. -/
inductive Irregular : List Rdf → List UInt8 → Prop
  | label {t ts b s tok rest n} : (∀ c ∈ b, IsBlank c) → IsName t → Word s tok rest → NameReads id tok n →
      (∃ l ∈ n, 63 < l.length) → Irregular (t :: ts) (b ++ s)
  | svc {b s} : (∀ c ∈ b, IsBlank c) → SvcIrregular s → Irregular [.svcparams] (b ++ s)
  | prefix128 {ts b s rest} : (∀ c ∈ b, IsBlank c) → FieldReads .ipv6prefix s [128] rest → (∀ c ∈ rest, IsBlank c) →
      Irregular (.ipv6prefix :: ts) (b ++ s)
  | later {t ts b s f rest} : (∀ c ∈ b, IsBlank c) → s ≠ [] → (∀ c, s.head? = some c → ¬ IsBlank c) → FieldReads t s f rest →
      Irregular ts rest → Irregular (t :: ts) (b ++ s)

end Wdns.Spec
