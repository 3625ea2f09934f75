import Verif.Basic

/-!
# Model: record descriptions

wdns/record_descr.h:23-57, wdns/record_descr.c:20-293, type numbers from wdns/wdns.h.in:67-160.
-/

namespace Wdns

/-- `rdf_type` — wdns/record_descr.h:28-52, without the markers `rdf_unknown` (an entry without
description) and `rdf_end` (end of the list). -/
inductive Rdf where
  | bytes | bytesB64 | bytesStr | name | uname | int8 | int16 | int32 | ipv4 | ipv6 | ipv6prefix
  | eui48 | eui64 | string | repstring | rrtype | typeBitmap | salt | hash | svcparams | ednsOptRdata
  deriving DecidableEq, Repr

/-- `record_descr` — wdns/record_descr.h:54-57; `cls` is `record_class` (0 = any class, 1 = IN), `types`
the field types before `rdf_end`. -/
structure Descr where
  cls : Nat
  types : List Rdf
  deriving DecidableEq, Repr

open Rdf in
/-- `record_descr_array` and `record_descr_len` — wdns/record_descr.c:20-293.  `none` for an index that is not populated
(`types[0] == rdf_unknown`) or beyond the end of the array. -/
def recordDescr : Nat → Option Descr
  | 5 => some ⟨0, [name]⟩                                            -- CNAME :23
  | 13 => some ⟨0, [string, string]⟩                                 -- HINFO :26
  | 7 => some ⟨0, [name]⟩                                            -- MB :29
  | 3 => some ⟨0, [name]⟩                                            -- MD :32
  | 4 => some ⟨0, [name]⟩                                            -- MF :35
  | 8 => some ⟨0, [name]⟩                                            -- MG :38
  | 14 => some ⟨0, [name, name]⟩                                     -- MINFO :41
  | 9 => some ⟨0, [name]⟩                                            -- MR :44
  | 15 => some ⟨0, [int16, name]⟩                                    -- MX :47
  | 2 => some ⟨0, [name]⟩                                            -- NS :50
  | 10 => some ⟨0, [bytes]⟩                                          -- NULL :53
  | 12 => some ⟨0, [name]⟩                                           -- PTR :56
  | 6 => some ⟨0, [name, name, int32, int32, int32, int32, int32]⟩   -- SOA :59
  | 16 => some ⟨0, [repstring]⟩                                      -- TXT :63
  | 1 => some ⟨1, [ipv4]⟩                                            -- A :68
  | 11 => some ⟨1, [int32, int8, bytes]⟩                             -- WKS :71
  | 18 => some ⟨0, [int16, name]⟩                                    -- AFSDB :76
  | 20 => some ⟨0, [string, string]⟩                                 -- ISDN :79
  | 17 => some ⟨0, [name, name]⟩                                     -- RP :82
  | 21 => some ⟨0, [int16, name]⟩                                    -- RT :85
  | 19 => some ⟨0, [string]⟩                                         -- X25 :88
  | 30 => some ⟨0, [name, bytes]⟩                                    -- NXT :91
  | 24 => some ⟨0, [int16, int8, int8, int32, int32, int32, int16, name, bytes]⟩  -- SIG :94
  | 39 => some ⟨0, [uname]⟩                                          -- DNAME :98
  | 38 => some ⟨1, [ipv6prefix, uname]⟩                              -- A6 :103
  | 28 => some ⟨1, [ipv6]⟩                                           -- AAAA :106
  | 36 => some ⟨1, [int16, uname]⟩                                   -- KX :109
  | 26 => some ⟨1, [int16, name, name]⟩                              -- PX :112
  | 35 => some ⟨1, [int16, int16, string, string, string, name]⟩     -- NAPTR :115
  | 33 => some ⟨1, [int16, int16, int16, name]⟩                      -- SRV :119
  | 48 => some ⟨0, [int16, int8, int8, bytesB64]⟩                    -- DNSKEY :124
  | 46 => some ⟨0, [rrtype, int8, int8, int32, int32, int32, int16, uname, bytesB64]⟩  -- RRSIG :128
  | 47 => some ⟨0, [uname, typeBitmap]⟩                              -- NSEC :135
  | 43 => some ⟨0, [int16, int8, int8, bytes]⟩                       -- DS :139
  | 50 => some ⟨0, [int8, int8, int16, salt, hash, typeBitmap]⟩      -- NSEC3 :145
  | 51 => some ⟨0, [int8, int8, int16, salt]⟩                        -- NSEC3PARAM :150
  | 99 => some ⟨0, [repstring]⟩                                      -- SPF :156
  | 52 => some ⟨0, [int8, int8, int8, bytes]⟩                        -- TLSA :161
  | 60 => some ⟨0, [int16, int8, int8, bytesB64]⟩                    -- CDNSKEY :174
  | 59 => some ⟨0, [int16, int8, int8, bytes]⟩                       -- CDS :177
  | 61 => some ⟨0, [bytesB64]⟩                                       -- OPENPGPKEY :182
  | 62 => some ⟨0, [int32, int16, typeBitmap]⟩                       -- CSYNC :192
  | 108 => some ⟨0, [eui48]⟩                                         -- EUI48 :204
  | 109 => some ⟨0, [eui64]⟩                                         -- EUI64 :212
  | 256 => some ⟨0, [int16, int16, bytesStr]⟩                        -- URI :222
  | 64 => some ⟨1, [int16, name, svcparams]⟩                         -- SVCB :233
  | 65 => some ⟨1, [int16, name, svcparams]⟩                         -- HTTPS :254
  | 257 => some ⟨1, [int8, string, bytesStr]⟩                        -- CAA :264
  | 41 => some ⟨0, [ednsOptRdata]⟩                                   -- OPT :283
  | _ => none

/-- Whether the description applies to a record of this class
(the test `record_class == class_un || record_class == rrclass`). -/
def Descr.applies (d : Descr) (rrclass : Nat) : Bool := d.cls = 0 ∨ d.cls = rrclass

end Wdns
