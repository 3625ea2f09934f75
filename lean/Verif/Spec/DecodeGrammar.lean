import Verif.Basic

/-!
# Specification: reading base64 and base32hex (RFC 4648)
-/

namespace Wdns.Spec

/-- The value of a base64 digit (RFC 4648, table 1). -/
def b64Val (c : UInt8) : Option Nat :=
  if 65 ≤ c.toNat ∧ c.toNat ≤ 90 then some (c.toNat - 65)
  else if 97 ≤ c.toNat ∧ c.toNat ≤ 122 then some (c.toNat - 71)
  else if 48 ≤ c.toNat ∧ c.toNat ≤ 57 then some (c.toNat + 4)
  else if c.toNat = 43 then some 62
  else if c.toNat = 47 then some 63
  else none

/-- The 24-bit number of four digits (missing ones are 0), as three octets. -/
def oct3 (ds : List Nat) : List UInt8 :=
  let n := ((ds.getD 0 0 * 64 + ds.getD 1 0) * 64 + ds.getD 2 0) * 64 + ds.getD 3 0
  [UInt8.ofNat (n / 65536), UInt8.ofNat (n / 256 % 256), UInt8.ofNat (n % 256)]

/-- The octets of base64 digits: three for each group of four digits, a last group of fewer digits gives the octets it fills. -/
def unpack64 : List Nat → List UInt8
  | a :: b :: c :: d :: rest => oct3 [a, b, c, d] ++ unpack64 rest
  | ds => (oct3 ds).take (6 * ds.length / 8)

/-- The value of a base32hex digit, of either case (RFC 4648, table 4). -/
def b32Val (c : UInt8) : Option Nat :=
  if 48 ≤ c.toNat ∧ c.toNat ≤ 57 then some (c.toNat - 48)
  else if 65 ≤ c.toNat ∧ c.toNat ≤ 86 then some (c.toNat - 55)
  else if 97 ≤ c.toNat ∧ c.toNat ≤ 118 then some (c.toNat - 87)
  else none

/-- The 40-bit number of eight digits (missing ones are 0), as five octets. -/
def oct5 (ds : List Nat) : List UInt8 :=
  let n := (((((((ds.getD 0 0 * 32 + ds.getD 1 0) * 32 + ds.getD 2 0) * 32 + ds.getD 3 0) * 32 + ds.getD 4 0) * 32 + ds.getD 5 0) * 32
    + ds.getD 6 0) * 32 + ds.getD 7 0)
  [UInt8.ofNat (n / 4294967296), UInt8.ofNat (n / 16777216 % 256), UInt8.ofNat (n / 65536 % 256), UInt8.ofNat (n / 256 % 256),
    UInt8.ofNat (n % 256)]

/-- The octets of base32 digits: five for each group of eight digits, a last group of fewer digits gives the octets it fills. -/
def unpack32 : List Nat → List UInt8
  | a :: b :: c :: d :: e :: f :: g :: h :: rest => oct5 [a, b, c, d, e, f, g, h] ++ unpack32 rest
  | ds => (oct5 ds).take (5 * ds.length / 8)

end Wdns.Spec
