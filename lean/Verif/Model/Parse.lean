import Verif.Model.Descr
import Verif.Model.RRset

/-!
# Model: parsing of rdata, resource records and messages

wdns/parse_rdata.c, wdns/parse_message_rr.c, wdns/parse_edns.c, wdns/parse_header.c,
wdns/parse_message.c.

`mem` is the memory that starts with the packet; the packet is its first `eop` bytes.  Pointers into the
packet are offsets.
-/

namespace Wdns
open Outcome

/-- The `alpn` loop of `svcparam_key_validate`, wdns/parse_rdata.c:49-52: `i = ptr - val`. -/
def alpnLoop (mem : List UInt8) (val valLen : Nat) : Nat → Nat → Outcome Nat
  | 0, _ => hang
  | fuel + 1, i =>
    if i < valLen then do
      let oclen ← rd mem (val + i)
      alpnLoop mem val valLen fuel (i + 1 + oclen.toNat)
    else ok i

/-- `svcparam_key_validate` — wdns/parse_rdata.c:23-99.  Key numbers: wdns/record_descr.h:65-97. -/
def svcparamKeyValidate (mem : List UInt8) (key valLen val : Nat) : Outcome Bool :=
  if key = 0 then ok (valLen % 2 = 0)                    -- spr_mandatory
  else if key = 1 then                                   -- spr_alpn
    if valLen = 0 then ok false
    else do
      let i ← alpnLoop mem val valLen (valLen + 1) 0
      ok (i = valLen)
  else if key = 2 then ok (valLen = 0)                   -- spr_nd_alpn
  else if key = 3 then ok (valLen = 2)                   -- spr_port
  else if key = 5 then ok true                           -- spr_ech
  else if key = 4 then ok (valLen % 4 = 0)               -- spr_ipv4hint
  else if key = 6 then ok (valLen % 16 = 0)              -- spr_ipv6hint
  else if key = 65535 then ok false                      -- spr_invalid
  else ok true

/-- Parser state inside `_wdns_parse_rdata`: `src` (offset), `src_bytes`, and the contents of the `ubuf`
`u` (the growable buffer is modelled separately, `Verif.Model.Ubuf`).
`src_bytes` is a `ssize_t`; it only becomes negative in the name case, which returns at once
(wdns/parse_rdata.c:172-176). -/
structure PState where
  src : Nat
  bytes : Nat
  out : List UInt8
  deriving DecidableEq, Repr

/-- The macro `copy_bytes(x)` — wdns/parse_rdata.c:124-132. -/
def pCopy (mem : List UInt8) (st : PState) (x : Nat) : Outcome PState :=
  if st.bytes < x then err .parseError
  else do
    let b ← rdN mem st.src x
    ok ⟨st.src + x, st.bytes - x, st.out ++ b⟩

/-- `case rdf_repstring` — wdns/parse_rdata.c:220-225. -/
def pRepstring (mem : List UInt8) : Nat → PState → Outcome PState
  | 0, _ => hang
  | fuel + 1, st =>
    if st.bytes > 0 then do
      let oclen ← rd mem st.src
      let st ← pCopy mem st (oclen.toNat + 1)
      pRepstring mem fuel st
    else ok st

/-- `case rdf_type_bitmap` — wdns/parse_rdata.c:243-262. -/
def pBitmap (mem : List UInt8) : Nat → PState → Outcome PState
  | 0, _ => hang
  | fuel + 1, st =>
    if st.bytes ≥ 2 then do
      let bl ← rd mem (st.src + 1)
      if ¬ (bl.toNat ≥ 1 ∧ bl.toNat ≤ 32) then err .outOfBounds
      else if bl.toNat ≤ st.bytes - 2 then do
        let st ← pCopy mem st (2 + bl.toNat)
        pBitmap mem fuel st
      else err .outOfBounds
    else ok st

/-- `case rdf_svcparams` — wdns/parse_rdata.c:264-313; `kv_len` is a `uint16_t`, so it wraps. -/
def pSvcparams (mem : List UInt8) : Nat → PState → Outcome PState
  | 0, _ => hang
  | fuel + 1, st =>
    if st.bytes > 0 then
      if st.bytes < 4 then err .parseError
      else do
        let k0 ← rd mem st.src
        let k1 ← rd mem (st.src + 1)
        let key := be16 k0 k1
        let l0 ← rd mem (st.src + 2)
        let l1 ← rd mem (st.src + 3)
        let valLen := be16 l0 l1
        let kvLen := (2 + 2 + valLen) % 65536
        if kvLen > st.bytes then err .outOfBounds
        else do
          let v ← svcparamKeyValidate mem key valLen (st.src + 4)
          if v = false then err .parseError
          else do
            let st ← pCopy mem st kvLen
            pSvcparams mem fuel st
    else ok st

/-- One field: the `switch` of wdns/parse_rdata.c:164-318. -/
def pField (mem : List UInt8) (p eop : Nat) (t : Rdf) (st : PState) : Outcome PState :=
  match t with
  | .name | .uname => do
    let (nm, len) ← unpackName maxlenName mem p eop st.src
    let (src', k) ← skipName mem st.src eop
    if st.bytes < k then err .outOfBounds
    else ok ⟨src', st.bytes - k, st.out ++ nm.take len⟩
  | .bytes | .bytesB64 | .bytesStr | .ednsOptRdata => pCopy mem st st.bytes
  | .int8 => pCopy mem st 1
  | .int16 | .rrtype => pCopy mem st 2
  | .int32 | .ipv4 => pCopy mem st 4
  | .ipv6 => pCopy mem st 16
  | .eui48 => pCopy mem st 6
  | .eui64 => pCopy mem st 8
  | .string | .salt | .hash => do
    let oclen ← rd mem st.src
    pCopy mem st (oclen.toNat + 1)
  | .repstring => pRepstring mem (st.bytes + 1) st
  | .ipv6prefix => do
    let pl ← rd mem st.src
    if pl.toNat > 128 then err .outOfBounds
    else
      let oclen := (128 - pl.toNat) / 8 + (if pl.toNat % 8 ≠ 0 then 1 else 0)
      pCopy mem st (oclen + 1)
  | .typeBitmap => pBitmap mem (st.bytes + 1) st
  | .svcparams => pSvcparams mem (st.bytes + 1) st

/-- The loop over the field types — wdns/parse_rdata.c:160-320. -/
def pFields (mem : List UInt8) (p eop : Nat) : List Rdf → PState → Outcome PState
  | [], st => ok st
  | t :: ts, st =>
    if st.bytes = 0 then ok st
    else do
      let st ← pField mem p eop t st
      pFields mem p eop ts st

/-- `_wdns_parse_rdata` — wdns/parse_rdata.c:110-345; the result is the new `rr->rdata`.
Its `len` field is a `uint16_t` (line 333). -/
def parseRdata (mem : List UInt8) (p eop rdata rdlen rrtype rrclass : Nat) : Outcome CRdata := do
  let st : PState := ⟨rdata, rdlen, []⟩
  let st ← match recordDescr rrtype with
    | none => pCopy mem st st.bytes                                     -- line 155
    | some d =>
      if d.applies rrclass then do
        let st ← pFields mem p eop d.types st
        if st.bytes ≠ 0 then err .outOfBounds else ok st                -- lines 321-324
      else pCopy mem st st.bytes                                        -- line 327
  ok ⟨st.out.length % 65536, st.out⟩

/-- `_wdns_parse_message_rr` — wdns/parse_message_rr.c:28-98; returns the RR and `*rrsz`. -/
def parseMessageRr (sec : Nat) (mem : List UInt8) (p eop data : Nat) : Outcome (RR × Nat) := do
  let (nm, len) ← unpackName maxlenName mem p eop data
  let name : CName := ⟨len, nm.take len⟩
  let (src, _) ← skipName mem data eop
  if src + 4 > eop ∨ (sec ≠ 0 ∧ src + 10 > eop) then err .parseError
  else do
    let t0 ← rd mem src
    let t1 ← rd mem (src + 1)
    let c0 ← rd mem (src + 2)
    let c1 ← rd mem (src + 3)
    if sec = 0 then ok (⟨0, be16 t0 t1, be16 c0 c1, name, none⟩, src + 4 - data)
    else do
      let l0 ← rd mem (src + 4)
      let l1 ← rd mem (src + 5)
      let l2 ← rd mem (src + 6)
      let l3 ← rd mem (src + 7)
      let n0 ← rd mem (src + 8)
      let n1 ← rd mem (src + 9)
      let rdlen := be16 n0 n1
      if src + 10 + rdlen > eop then err .overflow
      else do
        let rdata ← parseRdata mem p eop (src + 10) rdlen (be16 t0 t1) (be16 c0 c1)
        ok (⟨be32 l0 l1 l2 l3, be16 t0 t1, be16 c0 c1, name, some rdata⟩, src + 10 - data + rdlen)

/-- `wdns_edns_t` — wdns/wdns.h.in:238-244. -/
structure Edns where
  present : Bool
  version : Nat
  flags : Nat
  size : Nat
  options : Option CRdata
  deriving DecidableEq, Repr

/-- The all-zero `wdns_edns_t` (`memset`, wdns/parse_message.c:28). -/
def Edns.zero : Edns := ⟨false, 0, 0, 0, none⟩

/-- The part of `wdns_message_t` that records of any section can change. -/
structure Hdr where
  edns : Edns
  rcode : Nat
  deriving DecidableEq, Repr

/-- `_wdns_parse_edns` — wdns/parse_edns.c:17-32.  `rcode` is a `uint16_t`; `|=` of `(rrttl >> 16) & 0xFF00`. -/
def parseEdns (h : Hdr) (rr : RR) : Hdr :=
  { edns := { present := true, size := rr.rrclass, version := rr.rrttl / 65536 % 256,
              flags := rr.rrttl % 65536, options := rr.rdata }
    rcode := h.rcode ||| (rr.rrttl / 65536 / 256 % 256) * 256 }

/-- State of the inner loop of `wdns_parse_message`: `p`, the section array, EDNS and rcode. -/
structure SecState where
  p : Nat
  arr : RRsetArray
  hdr : Hdr
  deriving DecidableEq, Repr

/-- The inner loop for one section — wdns/parse_message.c:43-70: `n` records still to do.  The
`Bool` is `true` if the function returned from line 45 (`p == pkt_end`). -/
def parseSection (sec : Nat) (mem : List UInt8) (len : Nat) : Nat → SecState → Outcome (SecState × Bool)
  | 0, st => ok (st, false)
  | n + 1, st =>
    if st.p = len then ok (st, true)
    else do
      let (rr, rrlen) ← parseMessageRr sec mem 0 len st.p
      if rr.rrtype = 41 ∧ st.hdr.edns.present = false then
        parseSection sec mem len n ⟨st.p + rrlen, st.arr, parseEdns st.hdr rr⟩
      else do
        let arr ← insertRr st.arr rr sec
        parseSection sec mem len n ⟨st.p + rrlen, arr, st.hdr⟩

/-- `wdns_message_t` — wdns/wdns.h.in:246-252. -/
structure Message where
  id : Nat
  flags : Nat
  rcode : Nat
  edns : Edns
  sections : List RRsetArray
  deriving DecidableEq, Repr

/-- `WDNS_FLAGS_QR` — wdns/wdns.h.in:166. -/
def Message.qr (m : Message) : Nat := (m.flags >>> 15) &&& 0x01
/-- `WDNS_FLAGS_OPCODE` — wdns/wdns.h.in:167. -/
def Message.opcode (m : Message) : Nat := (m.flags >>> 11) &&& 0x0f
/-- `WDNS_FLAGS_AA` — wdns/wdns.h.in:168. -/
def Message.aa (m : Message) : Nat := (m.flags >>> 10) &&& 0x01
/-- `WDNS_FLAGS_TC` — wdns/wdns.h.in:169. -/
def Message.tc (m : Message) : Nat := (m.flags >>> 9) &&& 0x01
/-- `WDNS_FLAGS_RD` — wdns/wdns.h.in:170. -/
def Message.rd (m : Message) : Nat := (m.flags >>> 8) &&& 0x01
/-- `WDNS_FLAGS_RA` — wdns/wdns.h.in:171. -/
def Message.ra (m : Message) : Nat := (m.flags >>> 7) &&& 0x01
/-- `WDNS_FLAGS_Z` — wdns/wdns.h.in:172. -/
def Message.z (m : Message) : Nat := (m.flags >>> 6) &&& 0x01
/-- `WDNS_FLAGS_AD` — wdns/wdns.h.in:173. -/
def Message.ad (m : Message) : Nat := (m.flags >>> 5) &&& 0x01
/-- `WDNS_FLAGS_CD` — wdns/wdns.h.in:174. -/
def Message.cd (m : Message) : Nat := (m.flags >>> 4) &&& 0x01

/-- The empty `wdns_rrset_array_t`. -/
def RRsetArray.empty : RRsetArray := ⟨[], []⟩

/-- The outer loop over the sections — wdns/parse_message.c:42-71; `secs` lists the sections still to do
with their counts, `done` the finished ones. -/
def parseSections (mem : List UInt8) (len : Nat) :
    List (Nat × Nat) → Nat → Hdr → List RRsetArray → Outcome (Hdr × List RRsetArray)
  | [], _, hdr, done => ok (hdr, done)
  | (sec, count) :: rest, p, hdr, done => do
    let (st, returned) ← parseSection sec mem len count ⟨p, .empty, hdr⟩
    if returned then ok (st.hdr, done ++ [st.arr] ++ rest.map fun _ => .empty)
    else parseSections mem len rest st.p st.hdr (done ++ [st.arr])

/-- `wdns_parse_message` — wdns/parse_message.c:18-78.  On failure the message has been cleared
(lines 49, 76) and only the code is returned. -/
def parseMessage (mem : List UInt8) (len : Nat) : Outcome Message :=
  if len < 12 then err .len
  else do
    let h ← rdN mem 0 12
    let g := fun i => be16 (h.getD i 0) (h.getD (i + 1) 0)
    let flags := g 2
    let (hdr, secs) ← parseSections mem len [(0, g 4), (1, g 6), (2, g 8), (3, g 10)] 12
      ⟨.zero, flags % 16⟩ []
    ok ⟨g 0, flags, hdr.rcode, hdr.edns, secs⟩

end Wdns
