import Verif.Basic

/-!
# Specification: the IANA registries

The names of the DNS parameters registry, written down block by block from the registry and the RFCs, not from the code.
-/

namespace Wdns.Spec

/-- Blocks of consecutive numbers with their names. -/
abbrev Blocks := List (Nat × List String)

/-- The name of a number. -/
def registered (bs : Blocks) (v : Nat) : Option (List UInt8) :=
  (bs.findSome? fun b => if b.1 ≤ v then b.2[v - b.1]? else none).map ascii

/-- Resource record types (RFC 1035 and later; the library knows those assigned until about 2014, and SVCB and HTTPS of RFC 9460). -/
def typeBlocks : Blocks :=
  [(1, ["A", "NS", "MD", "MF", "CNAME", "SOA", "MB", "MG", "MR", "NULL", "WKS", "PTR", "HINFO", "MINFO", "MX", "TXT",   -- RFC 1035
    "RP", "AFSDB", "X25", "ISDN", "RT",                                                                               -- RFC 1183
    "NSAP", "NSAP-PTR",                                                                                               -- RFC 1706
    "SIG", "KEY", "PX", "GPOS", "AAAA", "LOC", "NXT", "EID", "NIMLOC", "SRV", "ATMA", "NAPTR", "KX", "CERT", "A6", "DNAME", "SINK",
    "OPT", "APL", "DS", "SSHFP", "IPSECKEY", "RRSIG", "NSEC", "DNSKEY", "DHCID", "NSEC3", "NSEC3PARAM", "TLSA"]),
   (55, ["HIP", "NINFO", "RKEY", "TALINK", "CDS", "CDNSKEY", "OPENPGPKEY", "CSYNC"]),
   (64, ["SVCB", "HTTPS"]),
   (99, ["SPF", "UINFO", "UID", "GID", "UNSPEC", "NID", "L32", "L64", "LP", "EUI48", "EUI64"]),
   (249, ["TKEY", "TSIG", "IXFR", "AXFR", "MAILB", "MAILA", "ANY", "URI", "CAA"]),
   (32768, ["TA", "DLV"])]

/-- Classes (RFC 1035 3.2.4, RFC 2136). -/
def classBlocks : Blocks := [(1, ["IN"]), (3, ["CH", "HS"]), (254, ["NONE", "ANY"])]

/-- Response codes (RFC 1035 4.1.1, RFC 2136, RFC 6891). -/
def rcodeBlocks : Blocks :=
  [(0, ["NOERROR", "FORMERR", "SERVFAIL", "NXDOMAIN", "NOTIMP", "REFUSED", "YXDOMAIN", "YXRRSET", "NXRRSET", "NOTAUTH", "NOTZONE"]), (16, ["BADVERS"])]

/-- Opcodes (RFC 1035 4.1.1, RFC 1996, RFC 2136). -/
def opcodeBlocks : Blocks := [(0, ["QUERY", "IQUERY", "STATUS"]), (4, ["NOTIFY", "UPDATE"])]

/-- SvcParamKeys (RFC 9460 14.3.2). -/
def keyBlocks : Blocks := [(0, ["mandatory", "alpn", "no-default-alpn", "port", "ipv4hint", "ech", "ipv6hint"])]

end Wdns.Spec
