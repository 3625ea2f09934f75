import Verif.Spec.Rdata

/-!
# Specification: which octet sequences the rdata printer can walk through

Rdata handed to the printer need not come from a message: it can be any sequence of octets.  This file says, per field
type, which octets a field takes (`Taken`), when the octets can be walked through to the end of the layout or of the rdata
(`Shown`), and when a domain name that is due consists of labels that run up to the very end without the root label
(`Dangling`).
-/

namespace Wdns.Spec

/-- Windows of a type bitmap, of any length. -/
inductive AnyWindows : List UInt8 → Prop
  | nil : AnyWindows []
  | cons {w l : UInt8} {s rest : List UInt8} : s.length = l.toNat → AnyWindows rest → AnyWindows (w :: l :: (s ++ rest))

/-- Values of SvcParams that can be shown; unlike `SvcValueOK` an empty list of ALPN identifiers is among them. -/
def SvcShown (key : Nat) (v : List UInt8) : Prop :=
  match key with
  | 0 => v.length % 2 = 0
  | 1 => Strings v
  | 2 => v = []
  | 3 => v.length = 2
  | 4 => v.length % 4 = 0
  | 6 => v.length % 16 = 0
  | 65535 => False
  | _ => True

/-- SvcParams: key, length and value, repeated. -/
inductive ParamsShown : List UInt8 → Prop
  | nil : ParamsShown []
  | cons {k0 k1 l0 l1 : UInt8} {v rest : List UInt8} : v.length = be16 l0 l1 →
      SvcShown (be16 k0 k1) v → ParamsShown rest → ParamsShown (k0 :: k1 :: l0 :: l1 :: (v ++ rest))

/-- EDNS options that can be shown: a client subnet (8) has a known family and no more address octets than fit, an extended
error (15) has a number, any other option is arbitrary. -/
def OptShown (code : Nat) (v : List UInt8) : Prop :=
  if code = 8 then
    ∃ f0 f1 source scope addr, v = f0 :: f1 :: source :: scope :: addr ∧
      ((be16 f0 f1 = 1 ∧ addr.length ≤ 4) ∨ (be16 f0 f1 = 2 ∧ addr.length ≤ 16))
  else if code = 15 then 2 ≤ v.length
  else True

/-- EDNS options: code, length and data, repeated. -/
inductive OptsShown : List UInt8 → Prop
  | nil : OptsShown []
  | cons {k0 k1 l0 l1 : UInt8} {v rest : List UInt8} : v.length = be16 l0 l1 →
      OptShown (be16 k0 k1) v → OptsShown rest → OptsShown (k0 :: k1 :: l0 :: l1 :: (v ++ rest))

/-- `Taken t f rest`: of the octets `f ++ rest` that remain, a field of type `t` is `f`. -/
def Taken (t : Rdf) (f rest : List UInt8) : Prop :=
  match t with
  | .name | .uname => ∃ n, WF n ∧ f = wire n
  | .bytes | .bytesB64 | .bytesStr => rest = []
  | .int8 => f.length = 1
  | .int16 | .rrtype => f.length = 2
  | .int32 | .ipv4 => f.length = 4
  | .ipv6 => f.length = 16
  | .eui48 => f.length = 6
  | .eui64 => f.length = 8
  | .string | .salt | .hash => ∃ l s, f = l :: s ∧ s.length = l.toNat
  | .repstring => Strings f ∧ rest = []
  | .ipv6prefix => Prefix6 f
  | .typeBitmap => AnyWindows f ∧ f ≠ [] ∧ rest.length ≤ 1
  | .svcparams => ParamsShown f ∧ rest = []
  | .ednsOptRdata => OptsShown f ∧ rest = []

/-- The octets can be walked through: every field of the layout that is reached is there; the rdata may end before any
field, and octets after the last field do not matter. -/
inductive Shown : List Rdf → List UInt8 → Prop
  | done {ts} : Shown ts []
  | over {w} : Shown [] w
  | field {t ts f rest} : f ++ rest ≠ [] → Taken t f rest → Shown ts rest → Shown (t :: ts) (f ++ rest)

/-- One or more labels, and no root label, in at most 254 octets. -/
def Hanging (w : List UInt8) : Prop :=
  ∃ n : Name, n ≠ [] ∧ (∀ l ∈ n, LabelOK l) ∧ wire n = w ++ [0] ∧ w.length ≤ 254

/-- A domain name is due, and what is left are labels without a root label. -/
inductive Dangling : List Rdf → List UInt8 → Prop
  | here {t ts w} : IsName t → Hanging w → Dangling (t :: ts) w
  | later {t ts f rest} : f ++ rest ≠ [] → Taken t f rest → Dangling ts rest → Dangling (t :: ts) (f ++ rest)

end Wdns.Spec
