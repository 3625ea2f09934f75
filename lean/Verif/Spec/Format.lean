import Verif.Basic

/-!
# Specification of the text encodings (RFC 4648, decimal and hexadecimal numerals)
-/

namespace Wdns.Spec

/-- The base64 alphabet of RFC 4648, table 1. -/
def b64Char (v : Nat) : UInt8 :=
  UInt8.ofNat (if v < 26 then 65 + v else if v < 52 then 97 + (v - 26) else if v < 62 then 48 + (v - 52)
    else if v = 62 then 43 else 47)

/-- Base64 with padding, RFC 4648 section 4. -/
def base64 : List UInt8 → List UInt8
  | [] => []
  | [a] => [b64Char (a.toNat / 4), b64Char (a.toNat % 4 * 16), 61, 61]
  | [a, b] => [b64Char (a.toNat / 4), b64Char (a.toNat % 4 * 16 + b.toNat / 16), b64Char (b.toNat % 16 * 4), 61]
  | a :: b :: c :: rest =>
    [b64Char (a.toNat / 4), b64Char (a.toNat % 4 * 16 + b.toNat / 16),
     b64Char (b.toNat % 16 * 4 + c.toNat / 64), b64Char (c.toNat % 64)] ++ base64 rest

/-- The alphabet of base32hex, RFC 4648, table 4. -/
def b32Char (v : Nat) : UInt8 := UInt8.ofNat (if v < 10 then 48 + v else 65 + (v - 10))

/-- The 40-bit number of five octets (missing ones are 0). -/
def group40 (x : List UInt8) : Nat :=
  ((((x.getD 0 0).toNat * 256 + (x.getD 1 0).toNat) * 256 + (x.getD 2 0).toNat) * 256 + (x.getD 3 0).toNat) * 256
    + (x.getD 4 0).toNat

/-- The eight base32 digits of a group, most significant first. -/
def group32 (x : List UInt8) : List UInt8 :=
  (List.range 8).map fun k => b32Char (group40 x / 32 ^ (7 - k) % 32)

/-- Base32hex without padding, RFC 4648 section 7: each group of five octets gives eight digits; a last group
of n octets only the ceil(8n/5) digits that carry bits. -/
def base32 : List UInt8 → List UInt8
  | [] => []
  | [a] => (group32 [a]).take 2
  | [a, b] => (group32 [a, b]).take 4
  | [a, b, c] => (group32 [a, b, c]).take 5
  | [a, b, c, d] => (group32 [a, b, c, d]).take 7
  | a :: b :: c :: d :: e :: rest => group32 [a, b, c, d, e] ++ base32 rest

/-- The value of a decimal digit. -/
def digitVal (b : UInt8) : Nat := b.toNat - 48
/-- A decimal digit. -/
def IsDigit (b : UInt8) : Prop := 48 ≤ b.toNat ∧ b.toNat ≤ 57
instance : DecidablePred IsDigit := fun b => by unfold IsDigit; infer_instance

/-- The number a string of decimal digits denotes. -/
def decVal (s : List UInt8) : Nat := s.foldl (fun v b => 10 * v + digitVal b) 0

/-- `s` is the decimal numeral of `n`: digits only, no leading zero except for `0` itself, denoting `n`. -/
def IsDecimal (s : List UInt8) (n : Nat) : Prop :=
  s ≠ [] ∧ (∀ b ∈ s, IsDigit b) ∧ (s.head? = some 48 → s = [48]) ∧ decVal s = n

/-- The decimal digits of `n`, most significant first (`fuel > n` is always enough). -/
def decDigits : Nat → Nat → List UInt8
  | 0, _ => []
  | fuel + 1, n => if n < 10 then [UInt8.ofNat (48 + n)] else decDigits fuel (n / 10) ++ [UInt8.ofNat (48 + n % 10)]

/-- The decimal numeral of `n` (`IsDecimal` characterises it, see `decText_unique`). -/
def decText (n : Nat) : List UInt8 := decDigits (n + 1) n

/-- The dotted quad of four octets. -/
def dottedQuad (a b c d : UInt8) : List UInt8 :=
  decText a.toNat ++ [46] ++ decText b.toNat ++ [46] ++ decText c.toNat ++ [46] ++ decText d.toNat

/-- The value of a hexadecimal digit, if it is one. -/
def hexVal (b : UInt8) : Option Nat :=
  if 48 ≤ b.toNat ∧ b.toNat ≤ 57 then some (b.toNat - 48)
  else if 97 ≤ b.toNat ∧ b.toNat ≤ 102 then some (b.toNat - 87)
  else if 65 ≤ b.toNat ∧ b.toNat ≤ 70 then some (b.toNat - 55)
  else none

/-- Reading pairs of hexadecimal digits. -/
def hexDecode : List UInt8 → Option (List UInt8)
  | [] => some []
  | [_] => none
  | x :: y :: rest =>
    match hexVal x, hexVal y, hexDecode rest with
    | some a, some b, some r => some (UInt8.ofNat (16 * a + b) :: r)
    | _, _, _ => none

/-- No small (`upper`) resp. no capital letters. -/
def HexCase (upper : Bool) (c : UInt8) : Prop :=
  if upper then ¬ (97 ≤ c.toNat ∧ c.toNat ≤ 122) else ¬ (65 ≤ c.toNat ∧ c.toNat ≤ 90)

/-! ## IPv6 addresses (RFC 5952) -/

/-- The hexadecimal digit of a value below 16. -/
def hexDigit (upper : Bool) (v : Nat) : UInt8 := UInt8.ofNat (if v < 10 then 48 + v else (if upper then 55 else 87) + v)

/-- Two hexadecimal digits per octet. -/
def hexText (upper : Bool) (bs : List UInt8) : List UInt8 :=
  bs.flatMap fun b => [hexDigit upper (b.toNat / 16), hexDigit upper (b.toNat % 16)]

/-- A 16-bit number in lower-case hexadecimal, without leading zeros. -/
def hexWord (w : Nat) : List UInt8 :=
  if w < 0x10 then [hexDigit false w]
  else if w < 0x100 then [hexDigit false (w / 0x10), hexDigit false (w % 0x10)]
  else if w < 0x1000 then [hexDigit false (w / 0x100), hexDigit false (w / 0x10 % 0x10), hexDigit false (w % 0x10)]
  else [hexDigit false (w / 0x1000), hexDigit false (w / 0x100 % 0x10), hexDigit false (w / 0x10 % 0x10),
    hexDigit false (w % 0x10)]

/-- The 16-bit words of a sequence of octets. -/
def words16 : List UInt8 → List Nat
  | a :: b :: rest => be16 a b :: words16 rest
  | _ => []

/-- Words in hexadecimal, separated by colons. -/
def wordsText (ws : List Nat) : List UInt8 := List.intercalate [58] (ws.map hexWord)

/-- The run of zero words to be written as `::`: the longest run of at least two words, the first one among equals
(RFC 5952, 4.2); position and length. -/
def zeroRun (ws : List Nat) : Option (Nat × Nat) :=
  [8, 7, 6, 5, 4, 3, 2].findSome? fun l =>
    ((List.range (9 - l)).find? fun b => ((ws.drop b).take l).all (· = 0)).map fun b => (b, l)

/-- The text of an IPv6 address; the last two words are written as a dotted quad after `::` and `::ffff:`. -/
def ip6Text (addr : List UInt8) : List UInt8 :=
  let ws := words16 addr
  let quad := dottedQuad (addr.getD 12 0) (addr.getD 13 0) (addr.getD 14 0) (addr.getD 15 0)
  match zeroRun ws with
  | none => wordsText ws
  | some (b, l) =>
    if b = 0 ∧ l = 6 then [58, 58] ++ quad
    else if b = 0 ∧ l = 5 ∧ ws.getD 5 0 = 0xffff then [58, 58] ++ hexWord 0xffff ++ [58] ++ quad
    else wordsText (ws.take b) ++ [58, 58] ++ wordsText (ws.drop (b + l))

end Wdns.Spec
