import Verif.Spec.Name

/-!
# Specification: presentation form of domain names (RFC 1035 5.1)
-/

namespace Wdns.Spec

/-- Presentation form of one octet of a label: `\.` and `\\` for the two special characters, the
character itself if it is printable and not a space, and `\DDD` otherwise. -/
def escByte (c : UInt8) : List UInt8 :=
  if c.toNat = 46 ∨ c.toNat = 92 then [92, c]
  else if 33 ≤ c.toNat ∧ c.toNat ≤ 126 then [c]
  else [92, UInt8.ofNat (48 + c.toNat / 100), UInt8.ofNat (48 + c.toNat / 10 % 10),
        UInt8.ofNat (48 + c.toNat % 10)]

/-- Presentation form of a label. -/
def labelText (l : Label) : List UInt8 := l.flatMap escByte

/-- Presentation form of a name: every label followed by a dot; the root is a single dot. -/
def nameText (n : Name) : List UInt8 :=
  if n = [] then [46] else n.flatMap (fun l => labelText l ++ [46])

/-- Number of backslashes at the end of a text. -/
def trailingBackslashes (s : List UInt8) : Nat := (s.reverse.takeWhile (fun c => c == 92)).length

end Wdns.Spec
