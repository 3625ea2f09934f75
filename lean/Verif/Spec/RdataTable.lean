import Verif.Spec.Rdata

/-!
# Specification: the wire layout of the record types, from the RFCs

Written from the RFCs, by IANA type number, not from the code's table.  A type that is absent is opaque.
`inOnly`: the layout is only defined for class IN.
-/

namespace Wdns.Spec

/-- Kinds of wire fields. -/
inductive Kind where
  | name            -- domain name
  | fixed (n : Nat) -- n octets
  | string          -- length octet and that many octets
  | strings         -- character strings up to the end
  | rest            -- everything up to the end
  | a6prefix        -- RFC 2874 prefix length and address suffix
  | bitmap          -- RFC 4034 type bitmap
  | svcparams       -- RFC 9460 parameters
  deriving DecidableEq, Repr

structure RRLayout where
  inOnly : Bool
  fields : List Kind
  deriving DecidableEq, Repr

open Kind in
/-- The record types whose layout the library knows. -/
def rrLayout : List (Nat × RRLayout) :=
  [ (1,   ⟨true,  [fixed 4]⟩),                                              -- A, RFC 1035 3.4.1
    (2,   ⟨false, [name]⟩),                                                 -- NS, RFC 1035 3.3.11
    (3,   ⟨false, [name]⟩),                                                 -- MD, RFC 1035 3.3.4
    (4,   ⟨false, [name]⟩),                                                 -- MF, RFC 1035 3.3.5
    (5,   ⟨false, [name]⟩),                                                 -- CNAME, RFC 1035 3.3.1
    (6,   ⟨false, [name, name, fixed 4, fixed 4, fixed 4, fixed 4, fixed 4]⟩), -- SOA, RFC 1035 3.3.13
    (7,   ⟨false, [name]⟩),                                                 -- MB, RFC 1035 3.3.3
    (8,   ⟨false, [name]⟩),                                                 -- MG, RFC 1035 3.3.6
    (9,   ⟨false, [name]⟩),                                                 -- MR, RFC 1035 3.3.8
    (10,  ⟨false, [rest]⟩),                                                 -- NULL, RFC 1035 3.3.10
    (11,  ⟨true,  [fixed 4, fixed 1, rest]⟩),                               -- WKS, RFC 1035 3.4.2
    (12,  ⟨false, [name]⟩),                                                 -- PTR, RFC 1035 3.3.12
    (13,  ⟨false, [string, string]⟩),                                       -- HINFO, RFC 1035 3.3.2
    (14,  ⟨false, [name, name]⟩),                                           -- MINFO, RFC 1035 3.3.7
    (15,  ⟨false, [fixed 2, name]⟩),                                        -- MX, RFC 1035 3.3.9
    (16,  ⟨false, [strings]⟩),                                              -- TXT, RFC 1035 3.3.14
    (17,  ⟨false, [name, name]⟩),                                           -- RP, RFC 1183 2.2
    (18,  ⟨false, [fixed 2, name]⟩),                                        -- AFSDB, RFC 1183 1
    (19,  ⟨false, [string]⟩),                                               -- X25, RFC 1183 3.1
    (20,  ⟨false, [string, string]⟩),                                       -- ISDN, RFC 1183 3.2
    (21,  ⟨false, [fixed 2, name]⟩),                                        -- RT, RFC 1183 3.3
    (24,  ⟨false, [fixed 2, fixed 1, fixed 1, fixed 4, fixed 4, fixed 4, fixed 2, name, rest]⟩), -- SIG, RFC 2535 4.1
    (26,  ⟨true,  [fixed 2, name, name]⟩),                                  -- PX, RFC 2163 4
    (28,  ⟨true,  [fixed 16]⟩),                                             -- AAAA, RFC 3596 2.2
    (30,  ⟨false, [name, rest]⟩),                                           -- NXT, RFC 2535 5.2
    (33,  ⟨true,  [fixed 2, fixed 2, fixed 2, name]⟩),                      -- SRV, RFC 2782
    (35,  ⟨true,  [fixed 2, fixed 2, string, string, string, name]⟩),       -- NAPTR, RFC 3403 4.1
    (36,  ⟨true,  [fixed 2, name]⟩),                                        -- KX, RFC 2230 3.1
    (38,  ⟨true,  [a6prefix, name]⟩),                                       -- A6, RFC 2874 3.1
    (39,  ⟨false, [name]⟩),                                                 -- DNAME, RFC 6672 2.1
    (41,  ⟨false, [rest]⟩),                                                 -- OPT, RFC 6891 6.1.2
    (43,  ⟨false, [fixed 2, fixed 1, fixed 1, rest]⟩),                      -- DS, RFC 4034 5.1
    (46,  ⟨false, [fixed 2, fixed 1, fixed 1, fixed 4, fixed 4, fixed 4, fixed 2, name, rest]⟩), -- RRSIG, RFC 4034 3.1
    (47,  ⟨false, [name, bitmap]⟩),                                         -- NSEC, RFC 4034 4.1
    (48,  ⟨false, [fixed 2, fixed 1, fixed 1, rest]⟩),                      -- DNSKEY, RFC 4034 2.1
    (50,  ⟨false, [fixed 1, fixed 1, fixed 2, string, string, bitmap]⟩),    -- NSEC3, RFC 5155 3.2
    (51,  ⟨false, [fixed 1, fixed 1, fixed 2, string]⟩),                    -- NSEC3PARAM, RFC 5155 4.2
    (52,  ⟨false, [fixed 1, fixed 1, fixed 1, rest]⟩),                      -- TLSA, RFC 6698 2.1
    (59,  ⟨false, [fixed 2, fixed 1, fixed 1, rest]⟩),                      -- CDS, RFC 7344 3.1
    (60,  ⟨false, [fixed 2, fixed 1, fixed 1, rest]⟩),                      -- CDNSKEY, RFC 7344 3.2
    (61,  ⟨false, [rest]⟩),                                                 -- OPENPGPKEY, RFC 7929 2.3
    (62,  ⟨false, [fixed 4, fixed 2, bitmap]⟩),                             -- CSYNC, RFC 7477 2.1.1
    (64,  ⟨true,  [fixed 2, name, svcparams]⟩),                             -- SVCB, RFC 9460 2.2
    (65,  ⟨true,  [fixed 2, name, svcparams]⟩),                             -- HTTPS, RFC 9460 2.2
    (99,  ⟨false, [strings]⟩),                                              -- SPF, RFC 7208 3.1
    (108, ⟨false, [fixed 6]⟩),                                              -- EUI48, RFC 7043 3.1
    (109, ⟨false, [fixed 8]⟩),                                              -- EUI64, RFC 7043 4.1
    (256, ⟨false, [fixed 2, fixed 2, rest]⟩),                               -- URI, RFC 7553 4.5
    (257, ⟨true,  [fixed 1, string, rest]⟩) ]                               -- CAA, RFC 8659 4.1

/-- Wire kind of a field type of the code's table (they differ otherwise only in their text form). -/
def kindOf : Rdf → Kind
  | .bytes | .bytesB64 | .bytesStr | .ednsOptRdata => .rest
  | .name | .uname => .name
  | .int8 => .fixed 1
  | .int16 | .rrtype => .fixed 2
  | .int32 | .ipv4 => .fixed 4
  | .ipv6 => .fixed 16
  | .eui48 => .fixed 6
  | .eui64 => .fixed 8
  | .ipv6prefix => .a6prefix
  | .string | .salt | .hash => .string
  | .repstring => .strings
  | .typeBitmap => .bitmap
  | .svcparams => .svcparams

end Wdns.Spec
