import Verif.Spec.Name
import Verif.Model.Descr

/-!
# Specification: the layout of rdata

A record type with a known layout is a list of field types (`recordDescr`, the code's own table).  This
file says which octet sequences are a field of each type, and how a sequence of fields lies in a message.
-/

namespace Wdns.Spec

/-- A sequence of length-prefixed character strings. -/
inductive Strings : List UInt8 → Prop
  | nil : Strings []
  | cons {l : UInt8} {s rest : List UInt8} : s.length = l.toNat → Strings rest → Strings (l :: (s ++ rest))

/-- An NSEC type bitmap: windows of a number, a length from 1 to 32, and that many octets. -/
inductive Windows : List UInt8 → Prop
  | nil : Windows []
  | cons {w l : UInt8} {s rest : List UInt8} : 1 ≤ l.toNat → l.toNat ≤ 32 → s.length = l.toNat →
      Windows rest → Windows (w :: l :: (s ++ rest))

/-- The values allowed for the known SvcParamKeys: mandatory (list of 16-bit keys), alpn (non-empty list of
strings), no-default-alpn (empty), port, ipv4hint, ech (anything), ipv6hint; key 65535 is reserved. -/
def SvcValueOK (key : Nat) (v : List UInt8) : Prop :=
  match key with
  | 0 => v.length % 2 = 0
  | 1 => v ≠ [] ∧ Strings v
  | 2 => v = []
  | 3 => v.length = 2
  | 4 => v.length % 4 = 0
  | 6 => v.length % 16 = 0
  | 65535 => False
  | _ => True

/-- SvcParams: key, length and value, repeated. -/
inductive Params : List UInt8 → Prop
  | nil : Params []
  | cons {k0 k1 l0 l1 : UInt8} {v rest : List UInt8} : v.length = be16 l0 l1 →
      SvcValueOK (be16 k0 k1) v → Params rest → Params (k0 :: k1 :: l0 :: l1 :: (v ++ rest))

/-- An A6 prefix: length 0..128, then as many octets as the remaining bits need. -/
def Prefix6 (f : List UInt8) : Prop :=
  ∃ pl s, f = pl :: s ∧ pl.toNat ≤ 128 ∧ s.length = (128 - pl.toNat + 7) / 8

/-- The octets of one field that is not a domain name. -/
def FieldOK : Rdf → List UInt8 → Prop
  | .name, _ => False
  | .uname, _ => False
  | .bytes, _ => True
  | .bytesB64, _ => True
  | .bytesStr, _ => True
  | .ednsOptRdata, _ => True
  | .int8, f => f.length = 1
  | .int16, f => f.length = 2
  | .rrtype, f => f.length = 2
  | .int32, f => f.length = 4
  | .ipv4, f => f.length = 4
  | .ipv6, f => f.length = 16
  | .eui48, f => f.length = 6
  | .eui64, f => f.length = 8
  | .string, f => ∃ l s, f = l :: s ∧ s.length = l.toNat
  | .salt, f => ∃ l s, f = l :: s ∧ s.length = l.toNat
  | .hash, f => ∃ l s, f = l :: s ∧ s.length = l.toNat
  | .repstring, f => Strings f
  | .ipv6prefix, f => Prefix6 f
  | .typeBitmap, f => Windows f
  | .svcparams, f => Params f

/-- Fields that extend to the end of the rdata. -/
def Terminal : Rdf → Prop
  | .bytes | .bytesB64 | .bytesStr | .ednsOptRdata | .repstring | .typeBitmap | .svcparams => True
  | _ => False

/-- Domain name fields. -/
def IsName : Rdf → Prop
  | .name | .uname => True
  | _ => False

instance : DecidablePred Terminal := fun t => by cases t <;> unfold Terminal <;> infer_instance
instance : DecidablePred IsName := fun t => by cases t <;> unfold IsName <;> infer_instance

/-- Rdata in uncompressed form: the fields one after the other; the rdata may end before any field. -/
inductive Conforms : List Rdf → List UInt8 → Prop
  | done {ts} : Conforms ts []
  | name {t ts n rest} : IsName t → WF n → Conforms ts rest → Conforms (t :: ts) (wire n ++ rest)
  | field {t ts f rest} : FieldOK t f → f ++ rest ≠ [] → (Terminal t → rest = []) → Conforms ts rest →
      Conforms (t :: ts) (f ++ rest)

/-- `Layout msg base e ts o out`: the octets of the message from `o` to `e` are fields of the types `ts`
(ending before any of them), names possibly compressed; `out` is their uncompressed form. -/
inductive Layout (msg : List UInt8) (base e : Nat) : List Rdf → Nat → List UInt8 → Prop
  | done {ts} : Layout msg base e ts e []
  | name {t ts o o' n rest} : o < e → IsName t → Denotes msg base o n → WF n → EncEnd msg o o' → o' ≤ e →
      Layout msg base e ts o' rest → Layout msg base e (t :: ts) o (wire n ++ rest)
  | field {t ts o o' rest} : o < e → o ≤ o' → o' ≤ e → FieldOK t ((msg.drop o).take (o' - o)) →
      (Terminal t → o' = e) → Layout msg base e ts o' rest →
      Layout msg base e (t :: ts) o ((msg.drop o).take (o' - o) ++ rest)

/-- Whether some value of this length is allowed for the SvcParamKey (compare `SvcValueOK`). -/
def SvcLenOK (key len : Nat) : Prop :=
  match key with
  | 0 => len % 2 = 0
  | 2 => len = 0
  | 3 => len = 2
  | 4 => len % 4 = 0
  | 6 => len % 16 = 0
  | 65535 => False
  | _ => True

/-- Proper SvcParams, if any, and then one whose length field is 65532 or more, a length that no rdata can hold but that is not absurd for its key.
(The code computes the size of such a parameter modulo 65536.) -/
inductive LongParam : List UInt8 → Prop
  | here {k0 k1 l0 l1 : UInt8} {w : List UInt8} : 65532 ≤ be16 l0 l1 → SvcLenOK (be16 k0 k1) (be16 l0 l1) →
      LongParam (k0 :: k1 :: l0 :: l1 :: w)
  | later {k0 k1 l0 l1 : UInt8} {v w : List UInt8} : v.length = be16 l0 l1 → SvcValueOK (be16 k0 k1) v → LongParam w →
      LongParam (k0 :: k1 :: l0 :: l1 :: (v ++ w))

/-- The rdata of an SVCB or HTTPS record at `o` has such a SvcParam behind the priority and the target name. -/
def LongSvc (msg : List UInt8) (o rdlen : Nat) : Prop :=
  ∃ o', EncEnd msg (o + 2) o' ∧ o' ≤ o + rdlen ∧ LongParam ((msg.drop o').take (o + rdlen - o'))

end Wdns.Spec
