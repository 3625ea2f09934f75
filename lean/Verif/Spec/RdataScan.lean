import Verif.Spec.RdataText

/-!
# Specification: canonical type bitmaps, and which rdata survive being written and read
-/

namespace Wdns.Spec

/-- Type bitmap windows in canonical form (RFC 4034, 4.1.2): ascending window numbers, one to 32 octets each, no window
ends in a zero octet. -/
def CanonWindows (ws : List (UInt8 × List UInt8)) : Prop :=
  ws.Pairwise (fun a b => a.1.toNat < b.1.toNat) ∧ ∀ w ∈ ws, 1 ≤ w.2.length ∧ w.2.length ≤ 32 ∧ w.2.getLast? ≠ some 0

/-- `f` is the canonical type bitmap of the types `t` with `S t`. -/
def CanonBitmap (f : List UInt8) (S : Nat → Prop) : Prop :=
  ∃ ws, CanonWindows ws ∧ f = ws.flatMap encWindow ∧ ∀ t, t ∈ ws.flatMap windowTypes ↔ S t

/-- `tok` is a name of the record type `t`: its mnemonic or `TYPEnnn`, in any letter case. -/
def TypeName (tok : List UInt8) (t : Nat) : Prop :=
  (∃ m, rrtypeToStr t = some m ∧ tok.map lower = m.map lower) ∨
  (t ≤ 65535 ∧ ∃ p d, tok = p ++ d ∧ p.map lower = ascii "type" ∧ IsDecimal d t)

/-- Blank characters between tokens. -/
def Blank (c : UInt8) : Prop := c = 32 ∨ c = 9 ∨ c = 13 ∨ c = 10

/-- A text that lists type names, separated by blanks. -/
inductive TypeList : List UInt8 → List Nat → Prop
  | nil : TypeList [] []
  | blank {c s ts} : Blank c → TypeList s ts → TypeList (c :: s) ts
  | last {tok t} : TypeName tok t → TypeList tok [t]
  | cons {tok t c s ts} : TypeName tok t → Blank c → TypeList s ts → TypeList (tok ++ c :: s) (t :: ts)

/-! ## Which rdata survive being written and read

The library accepts rdata that its own text form cannot express.  The predicates below say which rdata can be. -/

/-- A SvcParam whose text reads back as itself: no empty list, no reserved key in `mandatory`, an `alpn` list that does not
end with an empty protocol id, an `ech` value that is neither empty nor longer than 189 octets. -/
def ParamExact (k : Nat) (v : List UInt8) : Prop :=
  ¬ EmptyList k v ∧
  (k = 0 → 65535 ∉ words16 v) ∧
  (k = 1 → ∃ ids id, (∀ s ∈ ids ++ [id], s.length < 256) ∧ id ≠ [] ∧ v = (ids ++ [id]).flatMap encString) ∧
  (k = 5 → v ≠ [] ∧ v.length ≤ 189)

/-- A field, followed by `rest`, whose text reads back as itself. -/
def FieldExact (t : Rdf) (f rest : List UInt8) : Prop :=
  match t with
  | .rrtype => f ≠ [0, 0]
  | .ipv6prefix => (f.head? = some 0 → rest = []) ∧ (f.head? = some 128 → rest ≠ [])
  | .typeBitmap => ∃ ws, CanonWindows ws ∧ f = ws.flatMap encWindow
  | .svcparams => ∃ ps : List (Nat × List UInt8), (∀ p ∈ ps, p.1 < 65536 ∧ p.2.length < 65536 ∧ ParamExact p.1 p.2) ∧
      f = ps.flatMap encParam
  | _ => True

/-- Uncompressed rdata whose text reads back as itself. -/
inductive Exact : List Rdf → List UInt8 → Prop
  | done {ts} : Exact ts []
  | name {t ts n rest} : IsName t → WF n → Exact ts rest → Exact (t :: ts) (wire n ++ rest)
  | field {t ts f rest} : FieldOK t f → f ++ rest ≠ [] → (Terminal t → rest = []) → FieldExact t f rest → Exact ts rest →
      Exact (t :: ts) (f ++ rest)

end Wdns.Spec
