import Verif.Model.Name

/-!
# Model: resource records, RRsets, sorting, grouping, serialization

Sources: wdns/wdns.h.in:204-236, wdns/compare_rr_rrset.c, wdns/sort_rrset.c,
wdns/insert_rr_rrset_array.c, wdns/serialize_rrset.c, wdns/deserialize_rrset.c.

Fields of C integer type are natural numbers; `RRset.Fits` / `RR.Fits` say that they are in the range of
their C type.
Pointers to separately allocated blocks are represented by the contents of the block (ownership of the
blocks is modelled separately in `Verif.Model.Heap`).
-/

namespace Wdns
open Outcome

/-- `wdns_rdata_t` — wdns/wdns.h.in:209-212.  `len` is the field, `data` the bytes of the flexible
array member that exist in the block. -/
structure CRdata where
  len : Nat
  data : List UInt8
  deriving DecidableEq, Repr

/-- `wdns_rr_t` — wdns/wdns.h.in:214-220; `rdata = none` is the null pointer. -/
structure RR where
  rrttl : Nat
  rrtype : Nat
  rrclass : Nat
  name : CName
  rdata : Option CRdata
  deriving DecidableEq, Repr

/-- `wdns_rrset_t` — wdns/wdns.h.in:222-229.  `n_rdatas` is the length of the list `rdatas`. -/
structure RRset where
  rrttl : Nat
  rrtype : Nat
  rrclass : Nat
  name : CName
  rdatas : List CRdata
  deriving DecidableEq, Repr

/-- `wdns_rrset_array_t` — wdns/wdns.h.in:231-236.  `n_rrs`, `n_rrsets` are the list lengths. -/
structure RRsetArray where
  rrs : List RR
  rrsets : List RRset
  deriving DecidableEq, Repr

/-! ## wdns_compare_rr_rrset -/

/-- `wdns_compare_rr_rrset` — wdns/compare_rr_rrset.c:29-53. -/
def compareRrRrset (rr : RR) (rrset : RRset) : Outcome Bool :=
  if rr.name.len = rrset.name.len ∧ rr.rrtype = rrset.rrtype ∧ rr.rrclass = rrset.rrclass then do
    let d1 ← rdN rr.name.data 0 rr.name.len            -- line 41
    let n1 ← downcaseName ⟨rr.name.len, d1⟩             -- line 42
    let d2 ← rdN rrset.name.data 0 rrset.name.len       -- line 46
    let n2 ← downcaseName ⟨rrset.name.len, d2⟩          -- line 47
    ok (n1.data = n2.data)                              -- line 49, memcmp of name_rr.len bytes
  else ok false

/-! ## wdns_sort_rrset -/

/-- `memcmp` on two byte sequences of the same length: the sign of the first difference. -/
def memcmp : List UInt8 → List UInt8 → Int
  | a :: as, b :: bs => if a.toNat < b.toNat then -1 else if b.toNat < a.toNat then 1 else memcmp as bs
  | _, _ => 0

/-- `rdata_cmp` — wdns/sort_rrset.c:17-30. -/
def rdataCmp (r1 r2 : CRdata) : Outcome Int :=
  if r1.len < r2.len then ok (-1)
  else if r1.len > r2.len then ok 1
  else do
    let a ← rdN r1.data 0 r1.len
    let b ← rdN r2.data 0 r1.len
    ok (memcmp a b)

/-- What C requires of `qsort(base, n, size, cmp)` (ISO C 7.22.5.2), for a comparison function that
never faults on the elements: the result is a permutation of the input in which no element compares
greater than a later one.  Any function satisfying this is a possible implementation. -/
def QsortSpec (cmp : CRdata → CRdata → Outcome Int) (inp out : List CRdata) : Prop :=
  out.Perm inp ∧ out.Pairwise (fun a b => ∃ i, cmp a b = ok i ∧ i ≤ 0)

/-- `wdns_sort_rrset` — wdns/sort_rrset.c:38-47, as a relation between the RRset before and after
(which of the conforming results is produced is up to the C library). -/
def SortRrset (s s' : RRset) : Prop :=
  if s.rdatas.length > 1 then
    ∃ out, QsortSpec rdataCmp s.rdatas out ∧ s' = { s with rdatas := out }
  else s' = s

/-! ## _wdns_insert_rr_rrset_array -/

/-- The loop of wdns/insert_rr_rrset_array.c:59-83: look for a matching RRset, last one first.
`rrsets` is given in reverse order; the result is `none` if there is no match, else the updated
array (still reversed).  Line 67: `n_rdatas` is a `uint16_t`; if it wraps to 0 the `my_realloc` to
size 0 of line 68 trips its assertion. -/
def insertFind (rr : RR) : List RRset → Outcome (Option (List RRset))
  | [] => ok none
  | s :: rest => do
    let m ← compareRrRrset rr s
    if m then
      if s.rdatas.length + 1 ≥ 65536 then abort
      else
        match rr.rdata with
        | none => ub      -- not reachable: the rdata was dereferenced before (line 51)
        | some d =>
          ok (some ({ s with
            rdatas := s.rdatas ++ [d]
            rrttl := if rr.rrttl < s.rrttl then rr.rrttl else s.rrttl } :: rest))
    else do
      let r ← insertFind rr rest
      ok (r.map (s :: ·))

/-- Copying of the RR into the RR array — wdns/insert_rr_rrset_array.c:36-56. -/
def copyRR (rr : RR) (sec : Nat) : Outcome RR := do
  let nm ← rdN rr.name.data 0 rr.name.len
  let rd ← if sec ≠ 0 then
      match rr.rdata with
      | none => (ub : Outcome (Option CRdata))          -- line 51 dereferences rr->rdata
      | some d => do
        let b ← rdN d.data 0 d.len
        ok (some ⟨d.len, b⟩)
    else ok none
  ok ⟨rr.rrttl, rr.rrtype, rr.rrclass, ⟨rr.name.len, nm⟩, rd⟩

/-- `_wdns_insert_rr_rrset_array` — wdns/insert_rr_rrset_array.c:28-119.  `sec = 0` is
`WDNS_MSG_SEC_QUESTION` (wdns/wdns.h.in:33).  The counters are `uint16_t`: a wrap to 0 makes `my_realloc`
fail its assertion (lines 38, 88). -/
def insertRr (a : RRsetArray) (rr : RR) (sec : Nat) : Outcome RRsetArray := do
  if a.rrs.length + 1 ≥ 65536 then abort
  else
    let newRr ← copyRR rr sec
    let found ← if sec = 0 then ok none else insertFind rr a.rrsets.reverse
    match found with
    | some rs => ok ⟨a.rrs ++ [newRr], rs.reverse⟩
    | none =>
      if a.rrsets.length + 1 ≥ 65536 then abort
      else
        let rdatas := if sec ≠ 0 then rr.rdata.toList else []
        ok ⟨a.rrs ++ [newRr], a.rrsets ++ [⟨rr.rrttl, rr.rrtype, rr.rrclass, rr.name, rdatas⟩]⟩

/-- Inserting RRs one after the other, as wdns_parse_message does for one section
(wdns/parse_message.c:60-68). -/
def insertAll (sec : Nat) : RRsetArray → List RR → Outcome RRsetArray
  | a, [] => ok a
  | a, rr :: rrs => do
    let a' ← insertRr a rr sec
    insertAll sec a' rrs

/-! ## Serialization -/

/-- The bytes of a `uint16_t` in memory; `le` = little-endian machine. -/
def enc16 (le : Bool) (v : Nat) : List UInt8 :=
  if le then [UInt8.ofNat (v % 256), UInt8.ofNat (v / 256)]
  else [UInt8.ofNat (v / 256), UInt8.ofNat (v % 256)]

/-- The bytes of a `uint32_t` in memory. -/
def enc32 (le : Bool) (v : Nat) : List UInt8 :=
  if le then [UInt8.ofNat (v % 256), UInt8.ofNat (v / 256 % 256), UInt8.ofNat (v / 65536 % 256),
    UInt8.ofNat (v / 16777216)]
  else [UInt8.ofNat (v / 16777216), UInt8.ofNat (v / 65536 % 256), UInt8.ofNat (v / 256 % 256),
    UInt8.ofNat (v % 256)]

/-- Reading a `uint16_t` from its memory bytes. -/
def dec16 (le : Bool) : List UInt8 → Nat
  | [a, b] => if le then b.toNat * 256 + a.toNat else a.toNat * 256 + b.toNat
  | _ => 0

/-- Reading a `uint32_t` from its memory bytes. -/
def dec32 (le : Bool) : List UInt8 → Nat
  | [a, b, c, d] => if le then be32 d c b a else be32 a b c d
  | _ => 0

/-- The size computation of wdns/serialize_rrset.c:30-45. -/
def serializeSize (s : RRset) : Nat :=
  s.rdatas.foldl (fun sz r => sz + 2 + r.len) (1 + s.name.len + 2 + 2 + 4 + 2)

/-- The rdata loop of wdns/serialize_rrset.c:72-82; the output block has `cap` bytes. -/
def serializeRdatas (le : Bool) (cap : Nat) : List CRdata → List UInt8 → Outcome (List UInt8)
  | [], out => ok out
  | r :: rs, out => do
    let out ← wrN cap out (enc16 le r.len)
    let d ← rdN r.data 0 r.len
    let out ← wrN cap out d
    serializeRdatas le cap rs out

/-- `wdns_serialize_rrset` writing to a buffer of `cap` bytes — wdns/serialize_rrset.c:47-83. -/
def serializeRrset (le : Bool) (cap : Nat) (s : RRset) : Outcome (List UInt8) := do
  let out ← wrN cap [] [UInt8.ofNat s.name.len]
  let nm ← rdN s.name.data 0 s.name.len
  let out ← wrN cap out nm
  let out ← wrN cap out (enc16 le s.rrtype)
  let out ← wrN cap out (enc16 le s.rrclass)
  let out ← wrN cap out (enc32 le s.rrttl)
  let out ← wrN cap out (enc16 le s.rdatas.length)
  serializeRdatas le cap s.rdatas out

/-- The macro `copy_bytes` — wdns/deserialize_rrset.c:29-37: `buf` is the object, `off` the bytes
consumed so far. -/
def copyBytes (buf : List UInt8) (sz off n : Nat) : Outcome (List UInt8) :=
  if off + n > sz then err .overflow else rdN buf off n

/-- The rdata loop of wdns/deserialize_rrset.c:64-71. -/
def deserializeRdatas (le : Bool) (buf : List UInt8) (sz : Nat) :
    Nat → Nat → List CRdata → Outcome (List CRdata)
  | 0, _, acc => ok acc
  | n + 1, off, acc => do
    let b ← copyBytes buf sz off 2
    let rdlen := dec16 le b
    let d ← copyBytes buf sz (off + 2) rdlen
    deserializeRdatas le buf sz n (off + 2 + rdlen) (acc ++ [⟨rdlen, d⟩])

/-- `wdns_deserialize_rrset` — wdns/deserialize_rrset.c:25-74. -/
def deserializeRrset (le : Bool) (buf : List UInt8) (sz : Nat) : Outcome RRset := do
  let b ← copyBytes buf sz 0 1
  let nlen := (b.headD 0).toNat
  let nm ← copyBytes buf sz 1 nlen
  let t ← copyBytes buf sz (1 + nlen) 2
  let c ← copyBytes buf sz (1 + nlen + 2) 2
  let l ← copyBytes buf sz (1 + nlen + 4) 4
  let k ← copyBytes buf sz (1 + nlen + 8) 2
  let rds ← deserializeRdatas le buf sz (dec16 le k) (1 + nlen + 10) []
  ok ⟨dec32 le l, dec16 le t, dec16 le c, ⟨nlen, nm⟩, rds⟩

end Wdns
