import Verif.Spec.Rdata

/-!
# Specification: lower-casing the names of rdata
-/

namespace Wdns.Spec

/-- The record types whose rdata names are lower-cased in the canonical form of RFC 4034 section 6.2 (without
HINFO, which contains no name, and RRSIG, NSEC: RFC 6840 section 5.1), in the order of that document: NS, MD,
MF, CNAME, SOA, MB, MG, MR, PTR, MINFO, MX, RP, AFSDB, RT, SIG, PX, NXT, NAPTR, KX, SRV, DNAME, A6. -/
def canonicalTypes : List Nat :=
  [2, 3, 4, 5, 6, 7, 8, 9, 12, 14, 15, 17, 18, 21, 24, 26, 30, 35, 36, 33, 39, 38]

/-- `Lowered P ts w w'`: `w` is rdata of the layout `ts` (in uncompressed form; it may end before any field),
every name in it satisfies `P`, and `w'` is `w` with exactly its names lower-cased. -/
inductive Lowered (P : Name → Prop) : List Rdf → List UInt8 → List UInt8 → Prop
  | done {ts} : Lowered P ts [] []
  | name {t ts n rest rest'} : IsName t → WF n → P n → Lowered P ts rest rest' →
      Lowered P (t :: ts) (wire n ++ rest) (wire (lowerName n) ++ rest')
  | field {t ts f rest rest'} : FieldOK t f → f ++ rest ≠ [] → (Terminal t → rest = []) →
      Lowered P ts rest rest' → Lowered P (t :: ts) (f ++ rest) (f ++ rest')

/-- No label contains a zero octet. -/
def NoZero (n : Name) : Prop := ∀ l ∈ n, (0 : UInt8) ∉ l

end Wdns.Spec
