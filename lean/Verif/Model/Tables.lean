import Verif.Basic
import Verif.Model.Format
import Verif.Model.Libc

/-!
# Model: name tables

The C files rrtype_to_str.c, rrclass_to_str.c and rcode_to_str.c are generated at build time from the macros of
wdns.h by wdns/gen_rrtype_to_str, wdns/gen_rrclass_to_str and wdns/gen_rcode_to_str; the tables below are what
these scripts produce: the `switch` in header order, the `bsearch` table in the order of the sorted macro names.
A `NULL` result is `none`.
-/

namespace Wdns
open Outcome

/-- The cases of `wdns_rrtype_to_str` — wdns/wdns.h.in:68-156, wdns/gen_rrtype_to_str:42-54. -/
def rrtypeCases : List (Nat × List UInt8) :=
  [(1, ascii "A"), (2, ascii "NS"), (3, ascii "MD"), (4, ascii "MF"), (5, ascii "CNAME"), (6, ascii "SOA"),
   (7, ascii "MB"), (8, ascii "MG"), (9, ascii "MR"), (10, ascii "NULL"), (11, ascii "WKS"), (12, ascii "PTR"),
   (13, ascii "HINFO"), (14, ascii "MINFO"), (15, ascii "MX"), (16, ascii "TXT"), (17, ascii "RP"),
   (18, ascii "AFSDB"), (19, ascii "X25"), (20, ascii "ISDN"), (21, ascii "RT"), (22, ascii "NSAP"),
   (23, ascii "NSAP-PTR"), (24, ascii "SIG"), (25, ascii "KEY"), (26, ascii "PX"), (27, ascii "GPOS"),
   (28, ascii "AAAA"), (29, ascii "LOC"), (30, ascii "NXT"), (31, ascii "EID"), (32, ascii "NIMLOC"),
   (33, ascii "SRV"), (34, ascii "ATMA"), (35, ascii "NAPTR"), (36, ascii "KX"), (37, ascii "CERT"),
   (38, ascii "A6"), (39, ascii "DNAME"), (40, ascii "SINK"), (41, ascii "OPT"), (42, ascii "APL"),
   (43, ascii "DS"), (44, ascii "SSHFP"), (45, ascii "IPSECKEY"), (46, ascii "RRSIG"), (47, ascii "NSEC"),
   (48, ascii "DNSKEY"), (49, ascii "DHCID"), (50, ascii "NSEC3"), (51, ascii "NSEC3PARAM"), (52, ascii "TLSA"),
   (55, ascii "HIP"), (56, ascii "NINFO"), (57, ascii "RKEY"), (58, ascii "TALINK"), (59, ascii "CDS"),
   (60, ascii "CDNSKEY"), (61, ascii "OPENPGPKEY"), (62, ascii "CSYNC"), (64, ascii "SVCB"),
   (65, ascii "HTTPS"), (99, ascii "SPF"), (100, ascii "UINFO"), (101, ascii "UID"), (102, ascii "GID"),
   (103, ascii "UNSPEC"), (104, ascii "NID"), (105, ascii "L32"), (106, ascii "L64"), (107, ascii "LP"),
   (108, ascii "EUI48"), (109, ascii "EUI64"), (249, ascii "TKEY"), (250, ascii "TSIG"), (251, ascii "IXFR"),
   (252, ascii "AXFR"), (253, ascii "MAILB"), (254, ascii "MAILA"), (255, ascii "ANY"), (256, ascii "URI"),
   (257, ascii "CAA"), (32768, ascii "TA"), (32769, ascii "DLV")]

/-- The array `rrtypes` — wdns/gen_rrtype_to_str:61-78. -/
def rrtypes : List (Nat × List UInt8) :=
  [(1, ascii "A"), (38, ascii "A6"), (28, ascii "AAAA"), (18, ascii "AFSDB"), (255, ascii "ANY"),
   (42, ascii "APL"), (34, ascii "ATMA"), (252, ascii "AXFR"), (257, ascii "CAA"), (60, ascii "CDNSKEY"),
   (59, ascii "CDS"), (37, ascii "CERT"), (5, ascii "CNAME"), (62, ascii "CSYNC"), (49, ascii "DHCID"),
   (32769, ascii "DLV"), (39, ascii "DNAME"), (48, ascii "DNSKEY"), (43, ascii "DS"), (31, ascii "EID"),
   (108, ascii "EUI48"), (109, ascii "EUI64"), (102, ascii "GID"), (27, ascii "GPOS"), (13, ascii "HINFO"),
   (55, ascii "HIP"), (65, ascii "HTTPS"), (45, ascii "IPSECKEY"), (20, ascii "ISDN"), (251, ascii "IXFR"),
   (25, ascii "KEY"), (36, ascii "KX"), (105, ascii "L32"), (106, ascii "L64"), (29, ascii "LOC"),
   (107, ascii "LP"), (254, ascii "MAILA"), (253, ascii "MAILB"), (7, ascii "MB"), (3, ascii "MD"),
   (4, ascii "MF"), (8, ascii "MG"), (14, ascii "MINFO"), (9, ascii "MR"), (15, ascii "MX"),
   (35, ascii "NAPTR"), (104, ascii "NID"), (32, ascii "NIMLOC"), (56, ascii "NINFO"), (2, ascii "NS"),
   (22, ascii "NSAP"), (23, ascii "NSAP-PTR"), (47, ascii "NSEC"), (50, ascii "NSEC3"),
   (51, ascii "NSEC3PARAM"), (10, ascii "NULL"), (30, ascii "NXT"), (61, ascii "OPENPGPKEY"), (41, ascii "OPT"),
   (12, ascii "PTR"), (26, ascii "PX"), (57, ascii "RKEY"), (17, ascii "RP"), (46, ascii "RRSIG"),
   (21, ascii "RT"), (24, ascii "SIG"), (40, ascii "SINK"), (6, ascii "SOA"), (99, ascii "SPF"),
   (33, ascii "SRV"), (44, ascii "SSHFP"), (64, ascii "SVCB"), (32768, ascii "TA"), (58, ascii "TALINK"),
   (249, ascii "TKEY"), (52, ascii "TLSA"), (250, ascii "TSIG"), (16, ascii "TXT"), (101, ascii "UID"),
   (100, ascii "UINFO"), (103, ascii "UNSPEC"), (256, ascii "URI"), (11, ascii "WKS"), (19, ascii "X25")]

/-- The cases of `wdns_rrclass_to_str` — wdns/wdns.h.in:62-66, wdns/gen_rrclass_to_str:53-61. -/
def rrclassCases : List (Nat × List UInt8) :=
  [(1, ascii "IN"), (3, ascii "CH"), (4, ascii "HS"), (254, ascii "NONE"), (255, ascii "ANY")]

/-- The array `rrclasses` — wdns/gen_rrclass_to_str:63-80. -/
def rrclasses : List (Nat × List UInt8) :=
  [(255, ascii "ANY"), (3, ascii "CH"), (4, ascii "HS"), (1, ascii "IN"), (254, ascii "NONE")]

/-- The cases of `wdns_rcode_to_str` — wdns/wdns.h.in:49-60, wdns/gen_rcode_to_str:41-58. -/
def rcodeCases : List (Nat × List UInt8) :=
  [(0, ascii "NOERROR"), (1, ascii "FORMERR"), (2, ascii "SERVFAIL"), (3, ascii "NXDOMAIN"),
   (4, ascii "NOTIMP"), (5, ascii "REFUSED"), (6, ascii "YXDOMAIN"), (7, ascii "YXRRSET"), (8, ascii "NXRRSET"),
   (9, ascii "NOTAUTH"), (10, ascii "NOTZONE"), (16, ascii "BADVERS")]

/-- The array `rcodes` — wdns/gen_rcode_to_str:60-77. -/
def rcodes : List (Nat × List UInt8) :=
  [(16, ascii "BADVERS"), (1, ascii "FORMERR"), (0, ascii "NOERROR"), (9, ascii "NOTAUTH"), (4, ascii "NOTIMP"),
   (10, ascii "NOTZONE"), (3, ascii "NXDOMAIN"), (8, ascii "NXRRSET"), (5, ascii "REFUSED"),
   (2, ascii "SERVFAIL"), (6, ascii "YXDOMAIN"), (7, ascii "YXRRSET")]

/-- A `switch` over the cases. -/
def switchOf (cases : List (Nat × List UInt8)) (v : Nat) : Option (List UInt8) :=
  (cases.find? fun c => c.1 = v).map (·.2)

/-- `wdns_rrtype_to_str` — wdns/gen_rrtype_to_str:43-60. -/
def rrtypeToStr (t : Nat) : Option (List UInt8) := switchOf rrtypeCases t
/-- `wdns_rrclass_to_str` — wdns/gen_rrclass_to_str:39-61. -/
def rrclassToStr (c : Nat) : Option (List UInt8) := switchOf rrclassCases c
/-- `wdns_rcode_to_str` — wdns/gen_rcode_to_str:41-58. -/
def rcodeToStr (c : Nat) : Option (List UInt8) := switchOf rcodeCases c

/-- `cmp_u16str` — e.g. wdns/gen_rrtype_to_str:82-87; `strcasecmp` in the C locale (bytes compared after
`tolower`, as unsigned values). -/
def casecmp : List UInt8 → List UInt8 → Ordering
  | [], [] => .eq
  | [], _ :: _ => .lt
  | _ :: _, [] => .gt
  | a :: as, b :: bs =>
    if (lower a).toNat < (lower b).toNat then .lt
    else if (lower a).toNat > (lower b).toNat then .gt
    else casecmp as bs

/-- `bsearch` (glibc: the binary search of bits/stdlib-bsearch.h) between indices `l` and `u`. -/
def bsearch (tab : List (Nat × List UInt8)) (key : List UInt8) : Nat → Nat → Nat → Outcome (Option Nat)
  | 0, _, _ => hang
  | fuel + 1, l, u =>
    if l < u then
      match tab[(l + u) / 2]? with
      | none => ub
      | some e =>
        match casecmp key e.2 with
        | .lt => bsearch tab key fuel l ((l + u) / 2)
        | .gt => bsearch tab key fuel ((l + u) / 2 + 1) u
        | .eq => ok (some e.1)
    else ok none

/-- `bsearch(&key, tab, num, …)`. -/
def search (tab : List (Nat × List UInt8)) (key : List UInt8) : Outcome (Option Nat) :=
  bsearch tab key (tab.length + 1) 0 tab.length

/-- `convert_generic_rrtype` and `convert_generic_rrclass` — wdns/gen_rrtype_to_str:89-107,
wdns/gen_rrclass_to_str:91-109; `none` is `false`. -/
def convertGeneric (pre s : List UInt8) : Option Nat :=
  if s.length ≤ pre.length then none
  else if casecmp (s.take pre.length) pre ≠ .eq then none
  else
    let r := strtol (s.drop pre.length)
    if r.2 ≠ [] then none
    else if r.1 < 0 ∨ r.1 > 65535 then none
    else some r.1.toNat

/-- `wdns_str_to_rrtype` — wdns/gen_rrtype_to_str:109-122. -/
def strToRrtype (s : List UInt8) : Outcome Nat := do
  match ← search rrtypes s with
  | some v => ok v
  | none =>
    match convertGeneric (ascii "TYPE") s with
    | some v => ok v
    | none => ok 0

/-- `wdns_str_to_rrclass` — wdns/gen_rrclass_to_str:111-124. -/
def strToRrclass (s : List UInt8) : Outcome Nat := do
  match ← search rrclasses s with
  | some v => ok v
  | none =>
    match convertGeneric (ascii "CLASS") s with
    | some v => ok v
    | none => ok 0

/-- `wdns_str_to_rcode` — wdns/gen_rcode_to_str:88-98. -/
def strToRcode (s : List UInt8) : Outcome Nat := do
  match ← search rcodes s with
  | some v => ok v
  | none => err .failure

/-- The named SvcParamKeys — wdns/svcparamkeys_to_str.c:23-44 with the values of wdns/record_descr.h:66-92 (`spr_*`). -/
def svcKeyNames : List (Nat × List UInt8) :=
  [(0, ascii "mandatory"), (1, ascii "alpn"), (2, ascii "no-default-alpn"), (3, ascii "port"), (5, ascii "ech"),
   (4, ascii "ipv4hint"), (6, ascii "ipv6hint")]

/-- `_wdns_svcparamkey_to_str` — wdns/svcparamkeys_to_str.c:20-55, with a zero-filled buffer of 16 bytes as in both
callers (wdns/rdata_to_ubuf.c:106, 572): the string in the buffer.  `snprintf("key%hu")` never fails and at most 8
characters are written. -/
def svcparamkeyToStr (key : Nat) : List UInt8 :=
  match switchOf svcKeyNames key with
  | some s => s
  | none => if key = 65535 then ascii "invalid key" else ascii "key" ++ fmtU key

/-- `_wdns_str_to_svcparamkey` — wdns/svcparamkeys_to_str.c:57-95 (`strcmp` is case sensitive). -/
def strToSvcparamkey (s : List UInt8) : Nat :=
  match svcKeyNames.find? (fun e => e.2 = s) with
  | some e => e.1
  | none =>
    if s.take 3 = ascii "key" ∧ s.length > 3 then
      let r := strtoul (s.drop 3)
      if r.2 ≠ [] ∨ r.1 ≥ 65535 then 65535 else r.1
    else 65535

/-- `wdns_res_to_str` — wdns/res_to_str.c:17-56. -/
def resToStr : Res → List UInt8
  | .success => ascii "success"
  | .failure => ascii "failure"
  | .invalidCompressionPointer => ascii "invalid compression pointer"
  | .invalidLengthOctet => ascii "invalid length octet"
  | .invalidOpcode => ascii "invalid opcode"
  | .invalidRcode => ascii "invalid rcode"
  | .len => ascii "len"
  | .malloc => ascii "malloc"
  | .nameLen => ascii "name len"
  | .nameOverflow => ascii "name overflow"
  | .outOfBounds => ascii "out of bounds"
  | .overflow => ascii "overflow"
  | .parseError => ascii "parse error"
  | .qdcount => ascii "qdcount"
  | .unknownOpcode => ascii "unknown opcode"
  | .unknownRcode => ascii "unknown rcode"

/-- `wdns_opcode_to_str` — wdns/opcode_to_str.c:17-29, wdns/wdns.h.in:43-47. -/
def opcodeToStr (op : Nat) : Option (List UInt8) :=
  switchOf [(0, ascii "QUERY"), (1, ascii "IQUERY"), (2, ascii "STATUS"), (4, ascii "NOTIFY"), (5, ascii "UPDATE")] op

end Wdns
