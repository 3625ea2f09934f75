import Verif.Spec.RdataText

/-!
# Specification: text of EDNS options (RFC 6891, 7871, 8914)
-/

namespace Wdns.Spec

/-- What stands before the value of an option. -/
def optLabel (code : Nat) : List UInt8 :=
  if code = 8 then ascii "CLIENT-SUBNET:" else if code = 15 then ascii "EDE:" else ascii "OPT=" ++ decText code ++ ascii ":"

/-- The octets, those that are not printable replaced by dots. -/
def dots (s : List UInt8) : List UInt8 := s.map fun c => if 32 ≤ c.toNat ∧ c.toNat ≤ 126 then c else 46

/-- Filled up to `n` octets with zeros. -/
def padTo (n : Nat) (s : List UInt8) : List UInt8 := s ++ List.replicate (n - s.length) 0

/-- Extended DNS error codes (RFC 8914, 5.2). -/
def edeNames : List String :=
  ["Other Error", "Unsupported DNSKEY Algorithm", "Unsupported DS Digest Type", "Stale Answer", "Forged Answer",
   "DNSSEC Indeterminate", "DNSSEC Bogus", "Signature Expired", "Signature Not Yet Valid", "DNSKEY Missing",
   "RRSIGs Missing", "No Zone Key Bit Set", "NSEC Missing", "Cached Error", "Not Ready", "Blocked", "Censored", "Filtered",
   "Prohibited", "Stale NXDomain Answer", "Not Authoritative", "Not Supported", "No Reachable Authority", "Network Error",
   "Invalid Data"]

/-- A client subnet (RFC 7871): family, source and scope prefix length, address; `none` if malformed. -/
def subnetText : List UInt8 → Option (List UInt8)
  | f0 :: f1 :: source :: scope :: addr =>
    let prefixes := ascii "/" ++ decText source.toNat ++ ascii "/" ++ decText scope.toNat
    if be16 f0 f1 = 1 ∧ addr.length ≤ 4 then some (quadText (padTo 4 addr) ++ prefixes)
    else if be16 f0 f1 = 2 ∧ addr.length ≤ 16 then some (ip6Text (padTo 16 addr) ++ prefixes)
    else none
  | _ => none

/-- An extended error: number, its name if it has one, extra text. -/
def edeText : List UInt8 → Option (List UInt8)
  | i0 :: i1 :: rest =>
    some (decText (be16 i0 i1) ++ ((edeNames[be16 i0 i1]?).elim [] fun s => ascii " (" ++ ascii s ++ ascii ")") ++
      ascii ": (" ++ dots rest ++ ascii ")")
  | _ => none

/-- Any other option: the octets in hexadecimal, then as text. -/
def otherOptText (data : List UInt8) : List UInt8 :=
  (data.flatMap fun b => hexText false [b] ++ [32]) ++ ascii "(\"" ++ dots data ++ ascii "\")"

/-- The value of an option. -/
def optText (code : Nat) (data : List UInt8) : Option (List UInt8) :=
  if code = 8 then subnetText data else if code = 15 then edeText data else some (otherOptText data)

/-- The text of a non-empty sequence of octets read as a list of options, each code, length, data.  Options are separated
by newlines; at the first malformed one the text ends with a marker. -/
inductive OptsText : List UInt8 → List UInt8 → Prop
  | last {code data t} : code < 65536 → data.length < 65536 → optText code data = some t →
      OptsText (net16 code ++ net16 data.length ++ data) (optLabel code ++ [32] ++ t)
  | more {code data t rest s} : code < 65536 → data.length < 65536 → optText code data = some t → rest ≠ [] →
      OptsText rest s → OptsText (net16 code ++ net16 data.length ++ data ++ rest) (optLabel code ++ [32] ++ t ++ [10] ++ s)
  | one {b} : OptsText [b] (ascii " ### PARSE ERROR ###")
  | short {code rest} : code < 65536 → rest.length < 2 →
      OptsText (net16 code ++ rest) (optLabel code ++ ascii " ### PARSE ERROR ###")
  | cut {code len rest} : code < 65536 → len < 65536 → rest.length < len →
      OptsText (net16 code ++ net16 len ++ rest) (optLabel code ++ ascii " ### PARSE ERROR ###")
  | bad {code data rest} : code < 65536 → data.length < 65536 → optText code data = none →
      OptsText (net16 code ++ net16 data.length ++ data ++ rest) (optLabel code ++ ascii "  ### PARSE ERROR #12 ###")

end Wdns.Spec
