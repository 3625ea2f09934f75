import Verif.Model.Name
import Verif.Model.RRset
import Verif.Model.Parse
import Verif.Model.Format
import Verif.Model.Tables
import Verif.Spec.Ubuf

/-!
# Model: rendering rdata, records, RRsets and messages as text

wdns/rdata_to_ubuf.c, wdns/edns_options.c, wdns/rdata_to_str.c, wdns/rr_to_ubuf.c, wdns/rr_to_str.c,
wdns/rrset_to_ubuf.c, wdns/rrset_to_str.c, wdns/rrset_array_to_ubuf.c, wdns/rrset_array_to_str.c,
wdns/message_to_str.c.

The growable buffer `u` is the plain sequence of its octets; that the buffer of libmy/ubuf.h behaves like this is
C57.  `ubuf_add` and `ubuf_append` append; `ubuf_add_cstr` and `ubuf_add_fmt` first remove one trailing NUL.
`mem` is the memory that starts at the `rdata` pointer.
-/

namespace Wdns
open Outcome

/-- `ubuf_add_cstr` and `ubuf_add_fmt` — libmy/ubuf.h:55-66, 74-110 (for the formatted text `s`). -/
def uAddCstr (u s : List UInt8) : List UInt8 := Spec.stripLast 0 u ++ s

/-- The state of `_wdns_rdata_to_ubuf`: `src` (offset), `src_bytes` (a `ssize_t`, it can become negative), buffer. -/
structure TState where
  src : Nat
  bytes : Int
  u : List UInt8
  deriving DecidableEq, Repr

/-- A field was rendered, or `goto err` (`none`) / `goto err_res` (`some res`) with the buffer as it is then. -/
inductive TRes where
  | go (st : TState)
  | bad (r : Option Res) (u : List UInt8)
  deriving DecidableEq, Repr

/-- The macro `bytes_required(n)` — wdns/rdata_to_ubuf.c:299-302. -/
def need (st : TState) (n : Nat) (k : Outcome TRes) : Outcome TRes :=
  if st.bytes < (n : Int) then ok (.bad none st.u) else k

/-- One byte as `\DDD`: `char tmp[] = "\\000"; my_uint64_to_str(c, tmp, 5, NULL)` and the append of four
characters — wdns/rdata_to_ubuf.c:36-39, 270-273. -/
def escDDD (c : UInt8) : Outcome (List UInt8) := do
  let (dst, _, _) ← uint64ToStr c.toNat [92, 48, 48, 48, 0]
  ok (dst.take 4)

/-- The characters for one byte — wdns/rdata_to_ubuf.c:28-40. -/
def strByte (c : UInt8) : Outcome (List UInt8) :=
  if c.toNat = 34 then ok [92, 34]
  else if c.toNat = 92 then ok [92, 92]
  else if 32 ≤ c.toNat ∧ c.toNat ≤ 126 then ok [c]
  else escDDD c

/-- The loop of `rdata_to_str_string_unquoted` — wdns/rdata_to_ubuf.c:20-45, over the bytes read. -/
def strUnquoted : List UInt8 → List UInt8 → Outcome (List UInt8)
  | [], u => ok u
  | c :: cs, u => do
    let t ← strByte c
    strUnquoted cs (u ++ t)

/-- `rdata_to_str_string` — wdns/rdata_to_ubuf.c:47-58; `bs` are the `len` bytes at `src`. -/
def strQuoted (bs u : List UInt8) : Outcome (List UInt8) := do
  let u ← strUnquoted bs (u ++ [34])
  ok (u ++ [34, 32])

/-- One byte in hexadecimal: `my_bytes_to_hex_str(&b, 1, upper, tmp, size)` and the append of two characters,
e.g. wdns/rdata_to_ubuf.c:368-370. -/
def hexByte (upper : Bool) (size : Nat) (b : UInt8) : Outcome (List UInt8) := bytesToHexStr [b] upper size

/-- A loop that appends every byte in hexadecimal followed by `sep` — wdns/rdata_to_ubuf.c:332-336, 367-373, 425-431,
wdns/edns_options.c:229-234. -/
def hexRun (upper : Bool) (size : Nat) (sep : List UInt8) : List UInt8 → List UInt8 → Outcome (List UInt8)
  | [], u => ok u
  | b :: bs, u => do
    let t ← hexByte upper size b
    hexRun upper size sep bs (u ++ t ++ sep)

/-- The loop of `case rdf_eui48` and `case rdf_eui64` — wdns/rdata_to_ubuf.c:530-537, 544-551; `first` is `i == 0`. -/
def euiRun : Bool → List UInt8 → List UInt8 → Outcome (List UInt8)
  | _, [], u => ok u
  | first, b :: bs, u => do
    let t ← hexByte false 3 b
    euiRun false bs ((if first then u else u ++ [45]) ++ t)

/-- `case spr_mandatory` — wdns/rdata_to_ubuf.c:99-123, on the value. -/
def svcMandatory : List UInt8 → List UInt8 → List UInt8 × Res
  | [], u => (u, .success)
  | [_], u => (u, .parseError)
  | a :: b :: rest, u =>
    let u := uAddCstr u (svcparamkeyToStr (be16 a b))
    svcMandatory rest (u ++ [if rest = [] then 32 else 44])

/-- `case spr_ipv4hint` — wdns/rdata_to_ubuf.c:170-192, on the value. -/
def svcIp4 : Nat → List UInt8 → List UInt8 → Outcome (List UInt8 × Res)
  | 0, _, _ => hang
  | fuel + 1, v, u =>
    if v = [] then ok (u, .success)
    else if v.length < 4 then ok (u, .parseError)
    else do
      match ← inet4Ntop v 16 with
      | none => ok (u, .parseError)
      | some t => svcIp4 fuel (v.drop 4) (uAddCstr u t ++ [if v.drop 4 = [] then 32 else 44])

/-- `case spr_ipv6hint` — wdns/rdata_to_ubuf.c:194-216, on the value. -/
def svcIp6 : Nat → List UInt8 → List UInt8 → Outcome (List UInt8 × Res)
  | 0, _, _ => hang
  | fuel + 1, v, u =>
    if v = [] then ok (u, .success)
    else if v.length < 16 then ok (u, .parseError)
    else do
      match ← inet6Ntop v 46 with
      | none => ok (u, .parseError)
      | some t => svcIp6 fuel (v.drop 16) (uAddCstr u t ++ [if v.drop 16 = [] then 32 else 44])

/-- The characters for one byte of an alpn-id — wdns/rdata_to_ubuf.c:259-274. -/
def alpnByte (c : UInt8) : Outcome (List UInt8) :=
  if c.toNat = 34 then ok [92, 34]
  else if c.toNat = 92 then ok [92, 92, 92, 92]
  else if c.toNat = 44 then ok [92, 92, 44]
  else if 32 ≤ c.toNat ∧ c.toNat ≤ 126 then ok [c]
  else escDDD c

/-- The loop over the bytes of an alpn-id — wdns/rdata_to_ubuf.c:240-275. -/
def alpnId : List UInt8 → List UInt8 → Outcome (List UInt8)
  | [], u => ok u
  | c :: cs, u => do
    let t ← alpnByte c
    alpnId cs (u ++ t)

/-- The outer loop of `case spr_alpn` — wdns/rdata_to_ubuf.c:230-282, on the value. -/
def svcAlpn : Nat → List UInt8 → List UInt8 → Outcome (List UInt8 × Res)
  | 0, _, _ => hang
  | fuel + 1, v, u =>
    match v with
    | [] => ok (u, .success)
    | l :: v =>
      if v.length < l.toNat then ok (u, .parseError)
      else do
        let u ← alpnId (v.take l.toNat) u
        svcAlpn fuel (v.drop l.toNat) (u ++ [if v.drop l.toNat = [] then 34 else 44])

/-- `svcparam_to_str` — wdns/rdata_to_ubuf.c:88-292, on the bytes `v` of the value: the buffer afterwards and the result
(the buffer keeps what was appended when the result is an error). -/
def svcparamToStr (key : Nat) (v u : List UInt8) : Outcome (List UInt8 × Res) :=
  if key = 65535 then abort                                             -- assert
  else if key = 0 then ok (svcMandatory v u)
  else if key = 2 then if v ≠ [] then ok (u, .parseError) else ok (u ++ [32], .success)
  else if key = 3 then
    match v with
    | [a, b] => do
      let t ← decStr (be16 a b) 6
      ok (u ++ t ++ [32], .success)
    | _ => ok (u, .parseError)
  else if key = 5 then do
    let t ← bytesToBase64 v
    ok (u ++ t ++ [32], .success)
  else if key = 4 then svcIp4 (v.length + 1) v u
  else if key = 6 then svcIp6 (v.length + 1) v u
  else if key = 1 then do
    let (u, r) ← svcAlpn (v.length + 1) v (u ++ [34])
    if r = .success then ok (u ++ [32], r) else ok (u, r)
  else do
    let u ← strQuoted v u
    ok (u, .success)

/-- `case rdf_svcparams` — wdns/rdata_to_ubuf.c:567-628. -/
def tSvcparams (mem : List UInt8) : Nat → TState → Outcome TRes
  | 0, _ => hang
  | fuel + 1, st =>
    if st.bytes > 0 then
      need st 2 do
        let k0 ← rd mem st.src
        let k1 ← rd mem (st.src + 1)
        let key := be16 k0 k1
        if key = 65535 then ok (.bad none st.u)
        else
          let u := uAddCstr st.u (svcparamkeyToStr key ++ if key ≠ 2 then [61] else [])
          let st : TState := ⟨st.src + 2, st.bytes - 2, u⟩
          need st 2 do
            let l0 ← rd mem st.src
            let l1 ← rd mem (st.src + 1)
            let len := be16 l0 l1
            let st : TState := ⟨st.src + 2, st.bytes - 2, st.u⟩
            need st len do
              let v ← rdN mem st.src len
              let (u, r) ← svcparamToStr key v st.u
              if r ≠ .success then ok (.bad (some r) u)
              else tSvcparams mem fuel ⟨st.src + len, st.bytes - len, u⟩
    else ok (.go st)

/-- The body shared by `case rdf_string` and the loop of `case rdf_repstring` — wdns/rdata_to_ubuf.c:556-565,
632-639. -/
def tString (mem : List UInt8) (st : TState) : Outcome TRes :=
  need st 1 do
    let l ← rd mem st.src
    let st : TState := ⟨st.src + 1, st.bytes - 1, st.u⟩
    need st l.toNat do
      let bs ← rdN mem st.src l.toNat
      let u ← strQuoted bs st.u
      ok (.go ⟨st.src + l.toNat, st.bytes - l.toNat, u⟩)

/-- `case rdf_repstring` — wdns/rdata_to_ubuf.c:630-640. -/
def tRepstring (mem : List UInt8) : Nat → TState → Outcome TRes
  | 0, _ => hang
  | fuel + 1, st =>
    if st.bytes > 0 then do
      match ← tString mem st with
      | .go st => tRepstring mem fuel st
      | r => ok r
    else ok (.go st)

/-- A type mnemonic followed by a space — wdns/rdata_to_ubuf.c:651-657, 680-686. -/
def typeTok (u : List UInt8) (t : Nat) : List UInt8 :=
  match rrtypeToStr t with
  | some s => uAddCstr u s ++ [32]
  | none => uAddCstr u (ascii "TYPE" ++ fmtU t ++ [32])

/-- The types of the bits set in byte `a` — wdns/rdata_to_ubuf.c:675-689; `lo` is the number of the first bit. -/
def typesOfByte (win lo : Nat) (a : UInt8) : List Nat :=
  (List.range 8).filterMap fun j =>
    if a.toNat &&& (1 <<< (7 - j)) ≠ 0 then some ((win <<< 8) ||| (lo + j)) else none

/-- The loops over the bytes of one window — wdns/rdata_to_ubuf.c:673-690. -/
def tWindow (win : Nat) : Nat → List UInt8 → List UInt8 → List UInt8
  | _, [], u => u
  | lo, a :: as, u => tWindow win (lo + 8) as ((typesOfByte win lo a).foldl typeTok u)

/-- The loop of `case rdf_type_bitmap` — wdns/rdata_to_ubuf.c:668-692. -/
def tBitmap (mem : List UInt8) : Nat → TState → Outcome TRes
  | 0, _ => hang
  | fuel + 1, st =>
    if st.bytes ≥ 2 then do
      let w ← rd mem st.src
      let l ← rd mem (st.src + 1)
      let st : TState := ⟨st.src + 2, st.bytes - 2, st.u⟩
      need st l.toNat do
        let bs ← rdN mem st.src l.toNat
        tBitmap mem fuel ⟨st.src + l.toNat, st.bytes - l.toNat, tWindow w.toNat 0 bs st.u⟩
    else ok (.go st)

/-- `_wdns_ednsoptcode_to_ubuf` — wdns/edns_options.c:107-121. -/
def ednsCode (u : List UInt8) (code : Nat) : List UInt8 :=
  if code = 8 then u ++ ascii "CLIENT-SUBNET:"
  else if code = 15 then u ++ ascii "EDE:"
  else uAddCstr u (ascii "OPT=" ++ fmtU code ++ [58])

/-- `ede_purpose_array` — wdns/edns_options.c:53-81. -/
def edePurpose : List (List UInt8) :=
  [ascii "Other Error", ascii "Unsupported DNSKEY Algorithm", ascii "Unsupported DS Digest Type", ascii "Stale Answer",
   ascii "Forged Answer", ascii "DNSSEC Indeterminate", ascii "DNSSEC Bogus", ascii "Signature Expired",
   ascii "Signature Not Yet Valid", ascii "DNSKEY Missing", ascii "RRSIGs Missing", ascii "No Zone Key Bit Set",
   ascii "NSEC Missing", ascii "Cached Error", ascii "Not Ready", ascii "Blocked", ascii "Censored", ascii "Filtered",
   ascii "Prohibited", ascii "Stale NXDomain Answer", ascii "Not Authoritative", ascii "Not Supported",
   ascii "No Reachable Authority", ascii "Network Error", ascii "Invalid Data"]

/-- The macro `print_printable` — wdns/edns_options.c:140-145. -/
def printPrintable : List UInt8 → List UInt8 → List UInt8
  | [], u => u
  | c :: cs, u => printPrintable cs (uAddCstr u [if 32 ≤ c.toNat ∧ c.toNat ≤ 126 then c else 46])

/-- `ip_to_ubuf` — wdns/edns_options.c:85-104, on the address bytes `bs`. -/
def ipToUbuf (u : List UInt8) (fam : Nat) (bs : List UInt8) : Outcome (List UInt8 × Res) :=
  if fam ≠ 1 ∧ fam ≠ 2 then ok (u, .parseError)
  else if fam = 1 ∧ bs.length > 4 then ok (u, .parseError)
  else if fam = 2 ∧ bs.length > 16 then ok (u, .parseError)
  else do
    let addr ← wrN 16 [] bs
    let addr := addr ++ List.replicate (16 - bs.length) 0
    match ← (if fam = 1 then inet4Ntop addr 46 else inet6Ntop addr 46) with
    | none => ub                                                        -- `pres` would be uninitialised
    | some t => ok (uAddCstr u t, .success)

/-- `_wdns_ednsoptdata_to_ubuf` — wdns/edns_options.c:126-254, on the option data `bs`. -/
def ednsData (u : List UInt8) (code : Nat) (bs : List UInt8) : Outcome (List UInt8 × Res) :=
  let u := u ++ [32]
  if code = 8 then
    match bs with
    | f0 :: f1 :: source :: scope :: addr => do
      let (u, r) ← ipToUbuf u (be16 f0 f1) addr
      if r ≠ .success then ok (u, .parseError)
      else ok (uAddCstr u ([47] ++ fmtU source.toNat ++ [47] ++ fmtU scope.toNat), .success)
    | _ => ok (u, .parseError)
  else if code = 15 then
    match bs with
    | i0 :: i1 :: rest => do
      let info := be16 i0 i1
      let t ← decStr info 6
      let u := u ++ t
      let u := match edePurpose[info]? with
        | some s => uAddCstr u (ascii " (" ++ s ++ ascii ")")
        | none => u
      ok (printPrintable rest (u ++ ascii ": (") ++ [41], .success)
    | _ => ok (u, .parseError)
  else do
    let u ← hexRun false 3 [32] bs u
    ok (printPrintable bs (u ++ [40, 34]) ++ [34, 41], .success)

/-- `case rdf_edns_opt_rdata` — wdns/rdata_to_ubuf.c:696-731. -/
def tEdns (mem : List UInt8) : Nat → TState → Outcome TRes
  | 0, _ => hang
  | fuel + 1, st =>
    if st.bytes > 0 then
      need st 2 do
        let c0 ← rd mem st.src
        let c1 ← rd mem (st.src + 1)
        let code := be16 c0 c1
        let st : TState := ⟨st.src + 2, st.bytes - 2, ednsCode st.u code⟩
        need st 2 do
          let l0 ← rd mem st.src
          let l1 ← rd mem (st.src + 1)
          let len := be16 l0 l1
          let st : TState := ⟨st.src + 2, st.bytes - 2, st.u⟩
          need st len do
            let bs ← rdN mem st.src len
            let (u, r) ← ednsData st.u code bs
            if r ≠ .success then ok (.bad (some r) u)
            else
              let b := st.bytes - len
              tEdns mem fuel ⟨st.src + len, b, if b > 0 then u ++ [10] else u⟩
    else ok (.go st)

/-- All remaining bytes: the loops over `len = src_bytes` with `len` a `size_t` (a negative value is huge), e.g.
wdns/rdata_to_ubuf.c:366-367. -/
def rdRest (mem : List UInt8) (st : TState) : Outcome (List UInt8) :=
  if st.bytes < 0 then ub else rdN mem st.src st.bytes.toNat

/-- One field: the `switch` of wdns/rdata_to_ubuf.c:353-733. -/
def tField (mem : List UInt8) (t : Rdf) (st : TState) : Outcome TRes :=
  match t with
  | .name | .uname =>
    match lenUname mem st.src (st.src + st.bytes).toNat with
    | ok len => do
      let (_, s) ← domainToStr preslenName (mem.drop st.src) len
      ok (.go ⟨st.src + len, st.bytes - len, uAddCstr st.u s ++ [32]⟩)
    | err r => ok (.bad (some r) st.u)
    | ub => ub
    | hang => hang
    | abort => abort
  | .bytes => do
    let bs ← rdRest mem st
    let u ← hexRun true 3 [] bs st.u
    ok (.go ⟨st.src + bs.length, 0, u⟩)
  | .bytesB64 => do
    let bs ← rdN mem st.src (st.bytes % 65536).toNat                    -- the parameter is a uint16_t
    let t ← bytesToBase64 bs
    ok (.go ⟨st.src, 0, st.u ++ t⟩)
  | .bytesStr => do
    let bs ← rdRest mem st
    let u ← strQuoted bs st.u
    ok (.go ⟨st.src + bs.length, 0, u⟩)
  | .ipv6prefix =>
    need st 1 do
      let pl ← rd mem st.src
      if pl.toNat > 128 then ok (.bad none st.u)
      else
        let oclen := (128 - pl.toNat) / 8 + (if pl.toNat % 8 ≠ 0 then 1 else 0)
        need st (1 + oclen) do
          let u := uAddCstr st.u (fmtU pl.toNat ++ [32])
          let bs ← rdN mem (st.src + 1) oclen
          let u ← (if oclen > 0 then do
            match ← inet6Ntop (List.replicate (16 - oclen) 0 ++ bs) 46 with
            | none => ub                                                -- `pres` would be uninitialised
            | some t => ok (uAddCstr u t ++ [32])
            else ok u)
          ok (.go ⟨st.src + 1 + oclen, st.bytes - (1 + oclen), u⟩)
  | .salt =>
    need st 1 do
      let l ← rd mem st.src
      need st (1 + l.toNat) do
        let bs ← rdN mem (st.src + 1) l.toNat
        let u ← hexRun false 3 [] bs (if l.toNat = 0 then st.u ++ [45] else st.u)
        ok (.go ⟨st.src + 1 + l.toNat, st.bytes - (1 + l.toNat), u ++ [32]⟩)
  | .hash =>
    need st 1 do
      let l ← rd mem st.src
      need st (1 + l.toNat) do
        if l.toNat = 0 then ok (.go ⟨st.src + 1, st.bytes - 1, st.u ++ [48, 32]⟩)
        else do
          let bs ← rdN mem (st.src + 1) l.toNat
          let t ← base32Encode (2 * l.toNat + 1) bs
          ok (.go ⟨st.src + 1 + l.toNat, st.bytes - (1 + l.toNat), st.u ++ t ++ [32]⟩)
  | .int8 =>
    need st 1 do
      let a ← rd mem st.src
      let t ← decStr a.toNat 6
      ok (.go ⟨st.src + 1, st.bytes - 1, st.u ++ t ++ [32]⟩)
  | .int16 =>
    need st 2 do
      let a ← rd mem st.src
      let b ← rd mem (st.src + 1)
      let t ← decStr (be16 a b) 6
      ok (.go ⟨st.src + 2, st.bytes - 2, st.u ++ t ++ [32]⟩)
  | .int32 =>
    need st 4 do
      let a ← rd mem st.src
      let b ← rd mem (st.src + 1)
      let c ← rd mem (st.src + 2)
      let d ← rd mem (st.src + 3)
      let t ← decStr (be32 a b c d) 11
      ok (.go ⟨st.src + 4, st.bytes - 4, st.u ++ t ++ [32]⟩)
  | .ipv4 =>
    need st 4 do
      match ← inet4Ntop (mem.drop st.src) 16 with
      | none => ub                                                      -- `pres` would be uninitialised
      | some t => ok (.go ⟨st.src + 4, st.bytes - 4, uAddCstr st.u t ++ [32]⟩)
  | .ipv6 =>
    need st 16 do
      match ← inet6Ntop (mem.drop st.src) 46 with
      | none => ub                                                      -- `pres` would be uninitialised
      | some t => ok (.go ⟨st.src + 16, st.bytes - 16, uAddCstr st.u t ++ [32]⟩)
  | .eui48 =>
    need st 6 do
      let bs ← rdN mem st.src 6
      let u ← euiRun true bs st.u
      ok (.go ⟨st.src + 6, st.bytes - 6, u⟩)
  | .eui64 =>
    need st 8 do
      let bs ← rdN mem st.src 8
      let u ← euiRun true bs st.u
      ok (.go ⟨st.src + 8, st.bytes - 8, u⟩)
  | .string => tString mem st
  | .svcparams => tSvcparams mem (st.bytes.toNat + 1) st
  | .repstring => tRepstring mem (st.bytes.toNat + 1) st
  | .rrtype =>
    need st 2 do
      let a ← rd mem st.src
      let b ← rd mem (st.src + 1)
      ok (.go ⟨st.src + 2, st.bytes - 2, typeTok st.u (be16 a b)⟩)
  | .typeBitmap => need st 2 (tBitmap mem (st.bytes.toNat + 1) st)
  | .ednsOptRdata => tEdns mem (st.bytes.toNat + 1) st

/-- The loop over the field types — wdns/rdata_to_ubuf.c:349-734. -/
def tFields (mem : List UInt8) : List Rdf → TState → Outcome TRes
  | [], st => ok (.go st)
  | t :: ts, st =>
    if st.bytes = 0 then ok (.go st)
    else do
      match ← tField mem t st with
      | .go st => tFields mem ts st
      | r => ok r

/-- `_wdns_rdata_to_ubuf` — wdns/rdata_to_ubuf.c:294-749. -/
def rdataToUbuf (u mem : List UInt8) (rdlen rrtype rrclass : Nat) : Outcome (List UInt8) :=
  match recordDescr rrtype with
  | none => do                                                          -- lines 320-338
    let t ← decStr rdlen 6
    let bs ← rdN mem 0 rdlen
    hexRun false 6 [32] bs (u ++ ascii "\\# " ++ t ++ [32])
  | some d =>
    if d.applies rrclass then do
      match ← tFields mem d.types ⟨0, rdlen, u⟩ with
      | .go st => ok (Spec.stripLast 32 st.u)                           -- lines 736-738
      | .bad none u => ok (uAddCstr u (ascii " ### PARSE ERROR ###"))
      | .bad (some r) u => ok (uAddCstr u (ascii " ### PARSE ERROR #" ++ fmtU r.toNat ++ ascii " ###"))
    else ok u                                                           -- lines 340-344

/-- `ubuf_cterm` — libmy/ubuf.h:47-53: the C string the buffer holds afterwards is the buffer up to the first NUL. -/
def cstrOf (u : List UInt8) : List UInt8 := u.takeWhile (· ≠ 0)

/-- `wdns_rdata_to_str` — wdns/rdata_to_str.c:17-31: the returned C string. -/
def rdataToStr (mem : List UInt8) (rdlen rrtype rrclass : Nat) : Outcome (List UInt8) := do
  let u ← rdataToUbuf [] mem rdlen rrtype rrclass
  ok (cstrOf u)

/-- The class in the line of a record — wdns/rr_to_ubuf.c:43-46. -/
def classTok (c : Nat) : List UInt8 :=
  match rrclassToStr c with
  | some s => 32 :: s
  | none => ascii " CLASS" ++ fmtU c

/-- The type in the line of a record — wdns/rr_to_ubuf.c:48-51. -/
def rrtypeTok (t : Nat) : List UInt8 :=
  match rrtypeToStr t with
  | some s => 32 :: s
  | none => ascii " TYPE" ++ fmtU t

/-- `_wdns_rr_to_ubuf` — wdns/rr_to_ubuf.c:17-58; `rr->rdata` is not looked at in the question section. -/
def rrToUbuf (u : List UInt8) (rr : RR) (sec : Nat) : Outcome (List UInt8) := do
  let (_, name) ← domainToStr preslenName rr.name.data rr.name.len
  let u := if sec = 0 then u ++ [59] else u
  let u := uAddCstr u name
  let u ← (if sec ≠ 0 then do
    let t ← decStr rr.rrttl 11
    ok (u ++ [32] ++ t)
    else ok u)
  let u := uAddCstr u (classTok rr.rrclass)
  let u := uAddCstr u (rrtypeTok rr.rrtype)
  let u ← (if sec ≠ 0 then
    match rr.rdata with
    | none => ub                                                        -- null pointer
    | some rd => rdataToUbuf (u ++ [32]) rd.data rd.len rr.rrtype rr.rrclass
    else ok u)
  ok (u ++ [10])

/-- `wdns_rr_to_str` — wdns/rr_to_str.c:17-30. -/
def rrToStr (rr : RR) (sec : Nat) : Outcome (List UInt8) := do
  let u ← rrToUbuf [] rr sec
  ok (cstrOf u)

/-- The loop of `_wdns_rrset_to_ubuf` — wdns/rrset_to_ubuf.c:27-36, over the elements of `rdatas` it visits. -/
def rrsetLoop (s : RRset) (sec : Nat) : List (Option CRdata) → List UInt8 → Outcome (List UInt8)
  | [], u => ok u
  | r :: rs, u => do
    let u ← rrToUbuf u ⟨s.rrttl, s.rrtype, s.rrclass, s.name, r⟩ sec
    rrsetLoop s sec rs u

/-- `_wdns_rrset_to_ubuf` — wdns/rrset_to_ubuf.c:17-37.  In the question section it reads `rdatas[0]`; an RRset
without rdata has the null pointer for `rdatas`. -/
def rrsetToUbuf (u : List UInt8) (s : RRset) (sec : Nat) : Outcome (List UInt8) :=
  if sec = 0 then
    match s.rdatas with
    | [] => ub
    | r :: _ => rrsetLoop s sec [some r] u
  else rrsetLoop s sec (s.rdatas.map some) u

/-- `wdns_rrset_to_str` — wdns/rrset_to_str.c:17-30. -/
def rrsetToStr (s : RRset) (sec : Nat) : Outcome (List UInt8) := do
  let u ← rrsetToUbuf [] s sec
  ok (cstrOf u)

/-- `_wdns_rrset_array_to_ubuf` — wdns/rrset_array_to_ubuf.c:17-22, over `rrs`. -/
def rrsToUbuf (sec : Nat) : List RR → List UInt8 → Outcome (List UInt8)
  | [], u => ok u
  | rr :: rrs, u => do
    let u ← rrToUbuf u rr sec
    rrsToUbuf sec rrs u

/-- `wdns_rrset_array_to_str` — wdns/rrset_array_to_str.c:17-30. -/
def rrsetArrayToStr (a : RRsetArray) (sec : Nat) : Outcome (List UInt8) := do
  let u ← rrsToUbuf sec a.rrs []
  ok (cstrOf u)

/-- Splitting with `strtok_r(s, seps, &p)` until it returns `NULL` (C library): the maximal non-empty pieces without a
separator.  `cur` is the piece being collected. -/
def strtok (sep : UInt8 → Bool) : List UInt8 → List UInt8 → List (List UInt8)
  | [], cur => if cur = [] then [] else [cur]
  | c :: cs, cur =>
    if sep c then (if cur = [] then strtok sep cs [] else cur :: strtok sep cs [])
    else strtok sep cs (cur ++ [c])

/-- The operation code in the header — wdns/message_to_str.c:31-35. -/
def opcodeTok (n : Nat) : List UInt8 := match opcodeToStr n with | some s => s | none => fmtU n

/-- The response code in the header — wdns/message_to_str.c:37-41. -/
def rcodeTok (n : Nat) : List UInt8 := match rcodeToStr n with | some s => s | none => fmtU n

/-- The header lines — wdns/message_to_str.c:29-59 (`WDNS_FLAGS_RCODE` is `m.rcode`, wdns/wdns.h.in:175). -/
def msgHeader (m : Message) : List UInt8 :=
  let n (i : Nat) : List UInt8 := fmtU ((m.sections[i]?).elim 0 fun a => a.rrs.length)
  let flag (b : Nat) (s : String) : List UInt8 := if b ≠ 0 then ascii s else []
  ascii ";; ->>HEADER<<- " ++
  ascii "opcode: " ++ opcodeTok m.opcode ++
  ascii ", rcode: " ++ rcodeTok m.rcode ++
  ascii ", id: " ++ fmtU m.id ++ [10] ++ ascii ";; flags:" ++
  flag m.qr " qr" ++ flag m.aa " aa" ++ flag m.tc " tc" ++ flag m.rd " rd" ++ flag m.ra " ra" ++ flag m.ad " ad" ++
  flag m.cd " cd" ++ ascii "; QUERY: " ++ n 0 ++ ascii ", ANSWER: " ++ n 1 ++ ascii ", AUTHORITY: " ++ n 2 ++
  ascii ", ADDITIONAL: " ++ n 3 ++ [10]

/-- The OPT pseudosection — wdns/message_to_str.c:61-86. -/
def msgEdns (e : Edns) : Outcome (List UInt8) :=
  if e.present then do
    let head := ascii "\n;; OPT PSEUDOSECTION:" ++ ascii "\n; EDNS: version: " ++ fmtU e.version ++ ascii ", flags:" ++
      (if e.flags &&& 0x8000 ≠ 0 then ascii " do" else []) ++ ascii "; udp: " ++ fmtU e.size
    match e.options with
    | none => ok head
    | some o => do
      let t ← rdataToUbuf [] o.data o.len 41 0
      ok (head ++ (strtok (· = 10) (cstrOf t) []).flatMap fun opt => ascii "\n; " ++ opt)
  else ok []

/-- `wdns_message_to_str` — wdns/message_to_str.c:18-102.  The message has four sections (an array of the struct). -/
def messageToStr (m : Message) : Outcome (List UInt8) := do
  let sec (i : Nat) : List RR := (m.sections[i]?).elim [] fun a => a.rrs
  let e ← msgEdns m.edns
  let u := msgHeader m ++ e
  let u ← rrsToUbuf 0 (sec 0) (u ++ ascii "\n;; QUESTION SECTION:\n")
  let u ← rrsToUbuf 1 (sec 1) (u ++ ascii "\n;; ANSWER SECTION:\n")
  let u ← rrsToUbuf 2 (sec 2) (u ++ ascii "\n;; AUTHORITY SECTION:\n")
  let u ← rrsToUbuf 3 (sec 3) (u ++ ascii "\n;; ADDITIONAL SECTION:\n")
  ok (cstrOf u)

end Wdns
