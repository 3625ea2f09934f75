import Verif.Spec.Rdata
import Verif.Spec.NameText
import Verif.Spec.Format
import Verif.Model.Tables

/-!
# Specification: presentation form of rdata

The text of an rdata is a list of tokens, separated by single spaces.  This file says what the tokens are, field by
field (RFC 1035, 3597, 4034, 5155, 9460 …), in terms of the decoded contents of the field.
-/

namespace Wdns.Spec

/-- One octet inside a quoted string: `\"` and `\\`, the character itself if printable (a space included), `\DDD`
otherwise. -/
def charText (c : UInt8) : List UInt8 :=
  if c.toNat = 34 ∨ c.toNat = 92 then [92, c]
  else if 32 ≤ c.toNat ∧ c.toNat ≤ 126 then [c]
  else [92, UInt8.ofNat (48 + c.toNat / 100), UInt8.ofNat (48 + c.toNat / 10 % 10), UInt8.ofNat (48 + c.toNat % 10)]

/-- A quoted string. -/
def quoted (s : List UInt8) : List UInt8 := [34] ++ s.flatMap charText ++ [34]

/-- The mnemonic of a record type, or `TYPEnnn` (RFC 3597). -/
def typeText (t : Nat) : List UInt8 := (rrtypeToStr t).getD (ascii "TYPE" ++ decText t)

/-- A length-prefixed string. -/
def encString (s : List UInt8) : List UInt8 := UInt8.ofNat s.length :: s

/-- A window of a type bitmap: number, length, bits. -/
def encWindow (w : UInt8 × List UInt8) : List UInt8 := w.1 :: UInt8.ofNat w.2.length :: w.2

/-- Bit `i` of a sequence of octets, the most significant bit of the first octet being bit 0. -/
def bitSet (s : List UInt8) (i : Nat) : Bool := (s.getD (i / 8) 0).toNat / 2 ^ (7 - i % 8) % 2 = 1

/-- The types a window stands for, in ascending order. -/
def windowTypes (w : UInt8 × List UInt8) : List Nat :=
  ((List.range (8 * w.2.length)).filter (bitSet w.2)).map (w.1.toNat * 256 + ·)

/-- A 16-bit number, big-endian. -/
def net16 (n : Nat) : List UInt8 := [UInt8.ofNat (n / 256), UInt8.ofNat (n % 256)]

/-- A SvcParam: key, length, value. -/
def encParam (p : Nat × List UInt8) : List UInt8 := net16 p.1 ++ net16 p.2.length ++ p.2

/-- The name of a SvcParamKey (RFC 9460, 14.3.2). -/
def keyText (k : Nat) : List UInt8 :=
  match k with
  | 0 => ascii "mandatory"
  | 1 => ascii "alpn"
  | 2 => ascii "no-default-alpn"
  | 3 => ascii "port"
  | 4 => ascii "ipv4hint"
  | 5 => ascii "ech"
  | 6 => ascii "ipv6hint"
  | k => ascii "key" ++ decText k

/-- Items separated by commas. -/
def commas (items : List (List UInt8)) : List UInt8 := List.intercalate [44] items

/-- An item of a comma-separated list inside a string: commas and backslashes are escaped (RFC 9460, A.1). -/
def listItem (s : List UInt8) : List UInt8 := s.flatMap fun c => if c.toNat = 44 ∨ c.toNat = 92 then [92, c] else [c]

/-- The `i`-th block of `n` octets. -/
def block (n : Nat) (v : List UInt8) (i : Nat) : List UInt8 := (v.drop (n * i)).take n

/-- The dotted quad of the first four octets. -/
def quadText (v : List UInt8) : List UInt8 := dottedQuad (v.getD 0 0) (v.getD 1 0) (v.getD 2 0) (v.getD 3 0)

/-- The text of a SvcParamValue. -/
def SvcText (k : Nat) (v t : List UInt8) : Prop :=
  match k with
  | 0 => t = commas ((words16 v).map fun k => if k = 65535 then ascii "invalid key" else keyText k)
  | 1 => ∃ ids : List (List UInt8), (∀ s ∈ ids, s.length < 256) ∧ v = ids.flatMap encString ∧
      t = quoted (commas (ids.map listItem))
  | 2 => t = []
  | 3 => ∃ a b, v = [a, b] ∧ t = decText (be16 a b)
  | 4 => t = commas ((List.range (v.length / 4)).map fun i => quadText (block 4 v i))
  | 5 => t = base64 v
  | 6 => t = commas ((List.range (v.length / 16)).map fun i => ip6Text (block 16 v i))
  | _ => t = quoted v

/-- A SvcParam as a token: `key=value`; `no-default-alpn` has no value. -/
def paramText (k : Nat) (t : List UInt8) : List UInt8 := keyText k ++ (if k = 2 then [] else 61 :: t)

/-- A parameter with a list value, and the list is empty.  RFC 9460 does not allow this, the library does. -/
def EmptyList (k : Nat) (v : List UInt8) : Prop := v = [] ∧ (k = 0 ∨ k = 4 ∨ k = 6)

instance (k v) : Decidable (EmptyList k v) := by unfold EmptyList; infer_instance

/-- The tokens of SvcParams.  After an empty list the library does not write the separating space, so that such a
parameter and the next one form one token. -/
inductive ParamToks : List (Nat × List UInt8) → List (List UInt8) → Prop
  | nil : ParamToks [] []
  | cons {k v t ps toks} : ¬ EmptyList k v → SvcText k v t → ParamToks ps toks →
      ParamToks ((k, v) :: ps) (paramText k t :: toks)
  | last {k v t} : EmptyList k v → SvcText k v t → ParamToks [(k, v)] [paramText k t]
  | glue {k v t ps tok toks} : EmptyList k v → SvcText k v t → ParamToks ps (tok :: toks) →
      ParamToks ((k, v) :: ps) ((paramText k t ++ tok) :: toks)

/-- The tokens of one field that is not a domain name. -/
def FieldToks (t : Rdf) (f : List UInt8) (toks : List (List UInt8)) : Prop :=
  match t with
  | .name | .uname | .ednsOptRdata => False
  | .bytes => toks = [hexText true f]
  | .bytesB64 => toks = [base64 f]
  | .bytesStr => toks = [quoted f]
  | .int8 => ∃ a, f = [a] ∧ toks = [decText a.toNat]
  | .int16 => ∃ a b, f = [a, b] ∧ toks = [decText (be16 a b)]
  | .int32 => ∃ a b c d, f = [a, b, c, d] ∧ toks = [decText (be32 a b c d)]
  | .ipv4 => f.length = 4 ∧ toks = [quadText f]
  | .ipv6 => f.length = 16 ∧ toks = [ip6Text f]
  | .ipv6prefix => ∃ pl s, f = pl :: s ∧ pl.toNat ≤ 128 ∧ s.length = (128 - pl.toNat + 7) / 8 ∧
      toks = decText pl.toNat :: (if s = [] then [] else [ip6Text (List.replicate (16 - s.length) 0 ++ s)])
  | .eui48 => f.length = 6 ∧ toks = [List.intercalate [45] (f.map fun b => hexText false [b])]
  | .eui64 => f.length = 8 ∧ toks = [List.intercalate [45] (f.map fun b => hexText false [b])]
  | .string => ∃ s, s.length < 256 ∧ f = encString s ∧ toks = [quoted s]
  | .repstring => ∃ ss : List (List UInt8), (∀ s ∈ ss, s.length < 256) ∧ f = ss.flatMap encString ∧ toks = ss.map quoted
  | .rrtype => ∃ a b, f = [a, b] ∧ toks = [typeText (be16 a b)]
  | .typeBitmap => ∃ ws : List (UInt8 × List UInt8), (∀ w ∈ ws, 1 ≤ w.2.length ∧ w.2.length ≤ 32) ∧
      f = ws.flatMap encWindow ∧ toks = (ws.flatMap windowTypes).map typeText
  | .salt => ∃ s, s.length < 256 ∧ f = encString s ∧ toks = [if s = [] then [45] else hexText false s]
  | .hash => ∃ s, s.length < 256 ∧ f = encString s ∧ toks = [if s = [] then [48] else base32 s]
  | .svcparams => ∃ ps : List (Nat × List UInt8),
      (∀ p ∈ ps, p.1 < 65536 ∧ p.2.length < 65536 ∧ SvcValueOK p.1 p.2) ∧ f = ps.flatMap encParam ∧ ParamToks ps toks

/-- The tokens of an uncompressed rdata. -/
inductive RdataToks : List Rdf → List UInt8 → List (List UInt8) → Prop
  | done {ts} : RdataToks ts [] []
  | name {t ts n rest toks} : IsName t → WF n → RdataToks ts rest toks →
      RdataToks (t :: ts) (wire n ++ rest) (nameText n :: toks)
  | field {t ts f rest tk toks} : FieldToks t f tk → f ++ rest ≠ [] → (Terminal t → rest = []) → RdataToks ts rest toks →
      RdataToks (t :: ts) (f ++ rest) (tk ++ toks)

/-- Printable ASCII, the space included. -/
def Printable (t : List UInt8) : Prop := ∀ b ∈ t, 32 ≤ b.toNat ∧ b.toNat ≤ 126

instance : DecidablePred Printable := fun t => by unfold Printable; infer_instance

/-- Visible ASCII characters. -/
def Graphic (t : List UInt8) : Prop := ∀ b ∈ t, 33 ≤ b.toNat ∧ b.toNat ≤ 126

instance : DecidablePred Graphic := fun t => by unfold Graphic; infer_instance

/-- Visible ASCII characters other than `"`, `#`, `,` and `\\`. -/
def Plain (t : List UInt8) : Prop :=
  ∀ b ∈ t, 33 ≤ b.toNat ∧ b.toNat ≤ 126 ∧ b.toNat ≠ 34 ∧ b.toNat ≠ 35 ∧ b.toNat ≠ 44 ∧ b.toNat ≠ 92

instance : DecidablePred Plain := fun t => by unfold Plain; infer_instance

/-- Tokens separated by single spaces. -/
def spaced (toks : List (List UInt8)) : List UInt8 := List.intercalate [32] toks

/-- The generic form of RFC 3597: `\# length` and the octets in hexadecimal (each followed by a space). -/
def genericText (w : List UInt8) : List UInt8 :=
  ascii "\\# " ++ decText w.length ++ [32] ++ w.flatMap fun b => hexText false [b] ++ [32]

end Wdns.Spec
