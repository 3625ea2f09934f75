import Verif.Spec.RdataTable

/-!
# Specification: the text layout of the record types, from the RFCs

Written from the RFCs, by IANA type number.  Types without fields in this table are written in the generic form of RFC 3597.
-/

namespace Wdns.Spec

/-- Kinds of text fields. -/
inductive Pres where
  | name              -- a domain name
  | uint (octets : Nat) -- an unsigned decimal number
  | addr4             -- a dotted quad
  | addr6             -- an IPv6 address
  | a6prefix          -- prefix length and address suffix, RFC 2874 3.2
  | charStr           -- a character string, RFC 1035 5.1
  | charStrs          -- one or more character strings
  | quoted            -- a quoted string without length limit, RFC 7553 4.4, RFC 8659 4.1.1
  | hex               -- hexadecimal digits
  | base64            -- base64 digits
  | salt              -- hexadecimal digits or `-`, RFC 5155 3.3
  | hash32            -- base32hex digits, RFC 5155 3.3
  | rrtype            -- a type mnemonic
  | rrtypes           -- type mnemonics, RFC 4034 4.2
  | eui (octets : Nat) -- hexadecimal octets separated by `-`, RFC 7043
  | svcparams         -- RFC 9460 2.1
  | noText            -- no text form is defined
  deriving DecidableEq, Repr

open Pres in
/-- The text fields of each record type. -/
def rrPres : List (Nat × List Pres) :=
  [ (1,   [addr4]),                                                   -- A, RFC 1035 3.4.1
    (2,   [name]),                                                    -- NS, RFC 1035 3.3.11
    (3,   [name]),                                                    -- MD
    (4,   [name]),                                                    -- MF
    (5,   [name]),                                                    -- CNAME
    (6,   [name, name, uint 4, uint 4, uint 4, uint 4, uint 4]),      -- SOA, RFC 1035 3.3.13
    (7,   [name]),                                                    -- MB
    (8,   [name]),                                                    -- MG
    (9,   [name]),                                                    -- MR
    (12,  [name]),                                                    -- PTR
    (13,  [charStr, charStr]),                                        -- HINFO, RFC 1035 3.3.2
    (14,  [name, name]),                                              -- MINFO
    (15,  [uint 2, name]),                                            -- MX, RFC 1035 3.3.9
    (16,  [charStrs]),                                                -- TXT, RFC 1035 3.3.14
    (17,  [name, name]),                                              -- RP, RFC 1183 2.2
    (18,  [uint 2, name]),                                            -- AFSDB, RFC 1183 1
    (19,  [charStr]),                                                 -- X25, RFC 1183 3.1
    (20,  [charStr, charStr]),                                        -- ISDN, RFC 1183 3.2
    (21,  [uint 2, name]),                                            -- RT, RFC 1183 3.3
    (26,  [uint 2, name, name]),                                      -- PX, RFC 2163 4
    (28,  [addr6]),                                                   -- AAAA, RFC 3596 2.4
    (33,  [uint 2, uint 2, uint 2, name]),                            -- SRV, RFC 2782
    (35,  [uint 2, uint 2, charStr, charStr, charStr, name]),         -- NAPTR, RFC 3403 4.1
    (36,  [uint 2, name]),                                            -- KX, RFC 2230 3.1
    (38,  [a6prefix, name]),                                          -- A6, RFC 2874 3.2
    (39,  [name]),                                                    -- DNAME, RFC 6672
    (41,  [noText]),                                                  -- OPT, RFC 6891 6.1.1: no text form
    (43,  [uint 2, uint 1, uint 1, hex]),                             -- DS, RFC 4034 5.3
    (46,  [rrtype, uint 1, uint 1, uint 4, uint 4, uint 4, uint 2, name, base64]), -- RRSIG, RFC 4034 3.2
    (47,  [name, rrtypes]),                                           -- NSEC, RFC 4034 4.2
    (48,  [uint 2, uint 1, uint 1, base64]),                          -- DNSKEY, RFC 4034 2.2
    (50,  [uint 1, uint 1, uint 2, salt, hash32, rrtypes]),           -- NSEC3, RFC 5155 3.3
    (51,  [uint 1, uint 1, uint 2, salt]),                            -- NSEC3PARAM, RFC 5155 4.3
    (52,  [uint 1, uint 1, uint 1, hex]),                             -- TLSA, RFC 6698 2.2
    (59,  [uint 2, uint 1, uint 1, hex]),                             -- CDS, RFC 7344 3.1
    (60,  [uint 2, uint 1, uint 1, base64]),                          -- CDNSKEY, RFC 7344 3.2
    (61,  [base64]),                                                  -- OPENPGPKEY, RFC 7929 2.3
    (62,  [uint 4, uint 2, rrtypes]),                                 -- CSYNC, RFC 7477 2.1.2
    (64,  [uint 2, name, svcparams]),                                 -- SVCB, RFC 9460 2.1
    (65,  [uint 2, name, svcparams]),                                 -- HTTPS, RFC 9460 9
    (99,  [charStrs]),                                                -- SPF, RFC 7208 3.1
    (108, [eui 6]),                                                   -- EUI48, RFC 7043 3.2
    (109, [eui 8]),                                                   -- EUI64, RFC 7043 4.2
    (256, [uint 2, uint 2, quoted]),                                  -- URI, RFC 7553 4
    (257, [uint 1, charStr, quoted]) ]                                -- CAA, RFC 8659 4.1.1

/-- The kind of text each field type of the library reads. -/
def presOf : Rdf → Pres
  | .name => .name
  | .uname => .name
  | .int8 => .uint 1
  | .int16 => .uint 2
  | .int32 => .uint 4
  | .ipv4 => .addr4
  | .ipv6 => .addr6
  | .ipv6prefix => .a6prefix
  | .string => .charStr
  | .repstring => .charStrs
  | .bytesStr => .quoted
  | .bytes => .hex
  | .bytesB64 => .base64
  | .salt => .salt
  | .hash => .hash32
  | .rrtype => .rrtype
  | .typeBitmap => .rrtypes
  | .eui48 => .eui 6
  | .eui64 => .eui 8
  | .svcparams => .svcparams
  | .ednsOptRdata => .noText

end Wdns.Spec
