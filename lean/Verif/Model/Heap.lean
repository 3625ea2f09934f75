import Verif.Model.Parse

/-!
# Model: ownership of heap blocks

The functions of wdns/parse_message.c, wdns/parse_message_rr.c, wdns/parse_rdata.c (allocation part),
wdns/insert_rr_rrset_array.c, wdns/parse_edns.c, wdns/deserialize_rrset.c and wdns/clear.c once more, now with every allocation and
release of a heap block.  A heap is the set of live blocks; block contents are not stored in the
heap but, as in the other files, in the objects themselves.  Releasing or using a block that is not live is
`ub`.  `malloc` always succeeds (libmy/my_alloc.h asserts this) and returns a block that was never used before.
-/

namespace Wdns
open Outcome

/-- A pointer to a block (blocks are numbered) or `NULL`. -/
abbrev Ptr := Option Nat

/-- The live blocks; blocks from `next` on have never been used. -/
structure Heap where
  next : Nat
  live : List Nat
  deriving DecidableEq, Repr

/-- `my_malloc`, `my_calloc` — libmy/my_alloc.h:25-39. -/
def Heap.malloc (h : Heap) : Nat × Heap := (h.next, ⟨h.next + 1, h.next :: h.live⟩)

/-- `free` (as used by `my_free`, libmy/my_alloc.h:57). -/
def Heap.free (h : Heap) : Ptr → Outcome Heap
  | none => ok h
  | some b => if b ∈ h.live then ok ⟨h.next, h.live.erase b⟩ else ub

/-- `my_realloc` — libmy/my_alloc.h:41-47; modelled as always moving the block, so that any use of the old
pointer would show. -/
def Heap.realloc (h : Heap) (p : Ptr) : Outcome (Nat × Heap) := do
  let h ← h.free p
  ok h.malloc

/-- Access to the contents of the block. -/
def Heap.use (h : Heap) : Ptr → Outcome Unit
  | none => ub
  | some b => if b ∈ h.live then ok () else ub

/-- `wdns_rr_t` with its two owned pointers. -/
structure HRR where
  val : RR
  name : Ptr
  rdata : Ptr
  deriving DecidableEq, Repr

/-- `wdns_rrset_t` with its owned pointers; `items` are the elements of the array block `rdatas`. -/
structure HRRset where
  val : RRset
  name : Ptr
  rdatas : Ptr
  items : List Ptr
  deriving DecidableEq, Repr

/-- `wdns_rrset_array_t`; `rrsBlk`, `rrsetsBlk` are the pointers `rrs`, `rrsets`. -/
structure HArr where
  rrs : List HRR
  rrsets : List HRRset
  rrsBlk : Ptr
  rrsetsBlk : Ptr
  deriving DecidableEq, Repr

/-- The zeroed `wdns_rrset_array_t`. -/
def HArr.empty : HArr := ⟨[], [], none, none⟩

/-- `wdns_message_t`; `options` is the pointer `edns.options`. -/
structure HMsg where
  id : Nat
  flags : Nat
  hdr : Hdr
  options : Ptr
  sections : List HArr
  deriving DecidableEq, Repr

/-! ## Clearing — wdns/clear.c -/

/-- `wdns_clear_rr` — wdns/clear.c:17-22. -/
def hClearRr (rr : HRR) (h : Heap) : Outcome (HRR × Heap) := do
  let h ← h.free rr.name
  let h ← h.free rr.rdata
  ok ({ rr with name := none, rdata := none }, h)

/-- The loop of wdns/clear.c:27-28; `arr` is the array block. -/
def hFreeItems (arr : Ptr) : List Ptr → Heap → Outcome Heap
  | [], h => ok h
  | p :: ps, h => do
    h.use arr
    let h ← h.free p
    hFreeItems arr ps h

/-- `wdns_clear_rrset` — wdns/clear.c:24-32; afterwards `n_rdatas = 0`. -/
def hClearRrset (s : HRRset) (h : Heap) : Outcome (HRRset × Heap) := do
  let h ← hFreeItems s.rdatas s.items h
  let h ← h.free s.name
  let h ← h.free s.rdatas
  ok (⟨{ s.val with rdatas := [] }, none, none, []⟩, h)

/-- The loop of wdns/clear.c:37-38. -/
def hClearRrs (blk : Ptr) : List HRR → Heap → Outcome Heap
  | [], h => ok h
  | rr :: rrs, h => do
    h.use blk
    let (_, h) ← hClearRr rr h
    hClearRrs blk rrs h

/-- The loop of wdns/clear.c:42-43. -/
def hClearRrsets (blk : Ptr) : List HRRset → Heap → Outcome Heap
  | [], h => ok h
  | s :: ss, h => do
    h.use blk
    let (_, h) ← hClearRrset s h
    hClearRrsets blk ss h

/-- `wdns_clear_rrset_array` — wdns/clear.c:34-46. -/
def hClearArr (a : HArr) (h : Heap) : Outcome (HArr × Heap) := do
  let h ← hClearRrs a.rrsBlk a.rrs h
  let h ← h.free a.rrsBlk
  let h ← hClearRrsets a.rrsetsBlk a.rrsets h
  let h ← h.free a.rrsetsBlk
  ok (.empty, h)

/-- The loop of wdns/clear.c:53-54. -/
def hClearArrs : List HArr → Heap → Outcome (List HArr × Heap)
  | [], h => ok ([], h)
  | a :: as, h => do
    let (a, h) ← hClearArr a h
    let (as, h) ← hClearArrs as h
    ok (a :: as, h)

/-- `wdns_clear_message` — wdns/clear.c:48-55. -/
def hClearMessage (m : HMsg) (h : Heap) : Outcome (HMsg × Heap) := do
  let h ← h.free m.options
  let (secs, h) ← hClearArrs m.sections h
  ok ({ m with hdr := { m.hdr with edns := { m.hdr.edns with present := false, options := none } },
               options := none, sections := secs }, h)

/-! ## Parsing -/

/-- `_wdns_parse_rdata` — wdns/parse_rdata.c:110-345.  The buffer `u` (libmy/ubuf.h, libmy/vector.h) is two
blocks, created in line 144; growing it replaces its storage block, which is not modelled.  The result is the rdata
and its block (line 332). -/
def hParseRdata (mem : List UInt8) (p eop rdata rdlen rrtype rrclass : Nat) (h : Heap) :
    Outcome (Except Res (CRdata × Nat) × Heap) := do
  let (u, h) := h.malloc
  let (v, h) := h.malloc
  match parseRdata mem p eop rdata rdlen rrtype rrclass with
  | ok r => do
    let (d, h) := h.malloc
    h.use (some v)
    let h ← h.free (some v)
    let h ← h.free (some u)
    ok (.ok (r, d), h)
  | err e => do
    let h ← h.free (some v)
    let h ← h.free (some u)
    ok (.error e, h)
  | ub => ub
  | hang => hang
  | abort => abort

/-- `_wdns_parse_message_rr` — wdns/parse_message_rr.c:28-98.  Compare `parseMessageRr`. -/
def hParseMessageRr (sec : Nat) (mem : List UInt8) (p eop data : Nat) (h : Heap) :
    Outcome (Except Res (HRR × Nat) × Heap) :=
  match unpackName maxlenName mem p eop data with
  | ub => ub
  | hang => hang
  | abort => abort
  | err e => ok (.error e, h)                                     -- line 42
  | ok (nm, len) => do
    let (nb, h) := h.malloc                                       -- line 46
    let name : CName := ⟨len, nm.take len⟩
    let (src, _) ← skipName mem data eop
    if src + 4 > eop ∨ (sec ≠ 0 ∧ src + 10 > eop) then do
      let h ← h.free (some nb)                                    -- line 96
      ok (.error .parseError, h)
    else do
      let t0 ← rd mem src
      let t1 ← rd mem (src + 1)
      let c0 ← rd mem (src + 2)
      let c1 ← rd mem (src + 3)
      if sec = 0 then ok (.ok (⟨⟨0, be16 t0 t1, be16 c0 c1, name, none⟩, some nb, none⟩, src + 4 - data), h)
      else do
        let l0 ← rd mem (src + 4)
        let l1 ← rd mem (src + 5)
        let l2 ← rd mem (src + 6)
        let l3 ← rd mem (src + 7)
        let n0 ← rd mem (src + 8)
        let n1 ← rd mem (src + 9)
        let rdlen := be16 n0 n1
        if src + 10 + rdlen > eop then do
          let h ← h.free (some nb)
          ok (.error .overflow, h)
        else do
          let (r, h) ← hParseRdata mem p eop (src + 10) rdlen (be16 t0 t1) (be16 c0 c1) h
          match r with
          | .error e => do
            let h ← h.free (some nb)
            ok (.error e, h)
          | .ok (rdata, rb) =>
            ok (.ok (⟨⟨be32 l0 l1 l2 l3, be16 t0 t1, be16 c0 c1, name, some rdata⟩, some nb, some rb⟩,
              src + 10 - data + rdlen), h)

/-- The search loop of wdns/insert_rr_rrset_array.c:59-83.  Compare `insertFind`. -/
def hInsertFind (blk : Ptr) (rr : HRR) (h : Heap) : List HRRset → Outcome (Option (List HRRset × Heap))
  | [] => ok none
  | s :: rest => do
    h.use blk                                                     -- line 61: a->rrsets[i - 1]
    h.use rr.name                                                 -- wdns/compare_rr_rrset.c:41
    h.use s.name                                                  -- wdns/compare_rr_rrset.c:46
    let m ← compareRrRrset rr.val s.val
    if m then
      if s.items.length + 1 ≥ 65536 then abort
      else
        match rr.val.rdata with
        | none => ub
        | some d => do
          let (ab, h) ← h.realloc s.rdatas
          ok (some (⟨{ s.val with
              rdatas := s.val.rdatas ++ [d]
              rrttl := if rr.val.rrttl < s.val.rrttl then rr.val.rrttl else s.val.rrttl },
            s.name, some ab, s.items ++ [rr.rdata]⟩ :: rest, h))
    else do
      let r ← hInsertFind blk rr h rest
      ok (r.map fun (l, h) => (s :: l, h))

/-- `_wdns_insert_rr_rrset_array` — wdns/insert_rr_rrset_array.c:28-119.  Compare `insertRr`. -/
def hInsertRr (a : HArr) (rr : HRR) (sec : Nat) (h : Heap) : Outcome (HArr × Heap) :=
  if a.rrs.length + 1 ≥ 65536 then abort
  else do
    let (rb, h) ← h.realloc a.rrsBlk                              -- line 38
    let (nb, h) := h.malloc                                       -- line 46
    h.use rr.name                                                 -- line 47
    let newRr ← copyRR rr.val sec
    let (db, h) ← if sec ≠ 0 then do
        h.use rr.rdata                                            -- lines 51-53
        let (db, h) := h.malloc
        (ok (some db, h) : Outcome (Ptr × Heap))
      else ok (none, h)
    let found ← if sec = 0 then ok none else hInsertFind a.rrsetsBlk rr h a.rrsets.reverse
    match found with
    | some (rs, h) => do
      -- line 73: rr->rdata = NULL; line 117: wdns_clear_rr
      let (_, h) ← hClearRr { rr with rdata := none } h
      ok (⟨a.rrs ++ [⟨newRr, some nb, db⟩], rs.reverse, some rb, a.rrsetsBlk⟩, h)
    | none =>
      if a.rrsets.length + 1 ≥ 65536 then abort
      else do
        let (sb, h) ← h.realloc a.rrsetsBlk                       -- line 88
        let (ab, h) := if sec ≠ 0 then (some h.malloc.1, h.malloc.2) else (none, h)   -- line 100
        let val : RRset := ⟨rr.val.rrttl, rr.val.rrtype, rr.val.rrclass, rr.val.name,
          if sec ≠ 0 then rr.val.rdata.toList else []⟩
        let rrset : HRRset := ⟨val, rr.name, ab, if sec ≠ 0 then [rr.rdata] else []⟩
        -- lines 107, 112: name and (outside the question section) rdata detached
        let (_, h) ← hClearRr { rr with name := none, rdata := if sec ≠ 0 then none else rr.rdata } h
        ok (⟨a.rrs ++ [⟨newRr, some nb, db⟩], a.rrsets ++ [rrset], some rb, some sb⟩, h)

/-- `_wdns_parse_edns` — wdns/parse_edns.c:17-32.  The old `options` pointer is overwritten (it is `NULL`). -/
def hParseEdns (hdr : Hdr) (rr : HRR) (h : Heap) : Outcome (Hdr × Ptr × Heap) := do
  let (_, h) ← hClearRr { rr with rdata := none } h
  ok (parseEdns hdr rr.val, rr.rdata, h)

/-- Inner-loop state: as `SecState`, with the pointer `m->edns.options`. -/
structure HSecState where
  p : Nat
  arr : HArr
  hdr : Hdr
  options : Ptr
  deriving DecidableEq, Repr

/-- The inner loop — wdns/parse_message.c:43-70.  Compare `parseSection`. -/
def hParseSection (sec : Nat) (mem : List UInt8) (len : Nat) :
    Nat → HSecState → Heap → Outcome (Except Res Bool × HSecState × Heap)
  | 0, st, h => ok (.ok false, st, h)
  | n + 1, st, h =>
    if st.p = len then ok (.ok true, st, h)
    else do
      let (r, h) ← hParseMessageRr sec mem 0 len st.p h
      match r with
      | .error e => ok (.error e, st, h)
      | .ok (rr, rrlen) =>
        if rr.val.rrtype = 41 ∧ st.hdr.edns.present = false then do
          let (hdr, opts, h) ← hParseEdns st.hdr rr h
          hParseSection sec mem len n ⟨st.p + rrlen, st.arr, hdr, opts⟩ h
        else do
          let (arr, h) ← hInsertRr st.arr rr sec h
          hParseSection sec mem len n ⟨st.p + rrlen, arr, st.hdr, st.options⟩ h

/-- The outer loop — wdns/parse_message.c:42-71.  Compare `parseSections`.  The result has all sections, also on
failure (line 48). -/
def hParseSections (mem : List UInt8) (len : Nat) :
    List (Nat × Nat) → Nat → Hdr → Ptr → List HArr → Heap → Outcome (Except Res Unit × Hdr × Ptr × List HArr × Heap)
  | [], _, hdr, opts, done, h => ok (.ok (), hdr, opts, done, h)
  | (sec, count) :: rest, p, hdr, opts, done, h => do
    let (r, st, h) ← hParseSection sec mem len count ⟨p, .empty, hdr, opts⟩ h
    match r with
    | .error e => ok (.error e, st.hdr, st.options, done ++ [st.arr] ++ rest.map fun _ => .empty, h)
    | .ok true => ok (.ok (), st.hdr, st.options, done ++ [st.arr] ++ rest.map fun _ => .empty, h)
    | .ok false => hParseSections mem len rest st.p st.hdr st.options (done ++ [st.arr]) h

/-- The zeroed message (wdns/parse_message.c:28). -/
def HMsg.zero : HMsg := ⟨0, 0, ⟨.zero, 0⟩, none, [.empty, .empty, .empty, .empty]⟩

/-- `wdns_parse_message` — wdns/parse_message.c:18-78.  The result is the return value (`.ok ()` for
`wdns_res_success`), the message object and the heap. -/
def hParseMessage (mem : List UInt8) (len : Nat) (h : Heap) : Outcome (Except Res Unit × HMsg × Heap) :=
  if len < 12 then ok (.error .len, .zero, h)
  else do
    let hd ← rdN mem 0 12
    let g := fun i => be16 (hd.getD i 0) (hd.getD (i + 1) 0)
    let flags := g 2
    let (r, hdr, opts, secs, h) ← hParseSections mem len [(0, g 4), (1, g 6), (2, g 8), (3, g 10)] 12
      ⟨.zero, flags % 16⟩ none [] h
    let m : HMsg := ⟨g 0, flags, hdr, opts, secs⟩
    match r with
    | .ok () => ok (.ok (), m, h)
    | .error e => do
      let (m, h) ← hClearMessage m h                              -- lines 49, 76
      ok (.error e, m, h)

/-! ## wdns_deserialize_rrset — wdns/deserialize_rrset.c -/

/-- The macro `copy_bytes` — wdns/deserialize_rrset.c:29-37, with the clearing on failure; `k` is the rest
of the function.  Compare `copyBytes`. -/
def hCopyBytes (s : HRRset) (buf : List UInt8) (sz off n : Nat) (h : Heap)
    (k : List UInt8 → Outcome (Except Res Unit × HRRset × Heap)) : Outcome (Except Res Unit × HRRset × Heap) :=
  if off + n > sz then do
    let (s, h) ← hClearRrset s h
    ok (.error .overflow, s, h)
  else do
    let b ← rdN buf off n
    k b

/-- The rdata loop of wdns/deserialize_rrset.c:64-71; `accp` are the pointers stored so far, the other
elements of the array are `NULL` (line 63: `my_calloc`).  Compare `deserializeRdatas`. -/
def hDeserializeRdatas (le : Bool) (buf : List UInt8) (sz : Nat) (s : HRRset) :
    Nat → Nat → List CRdata → List Ptr → Heap → Outcome (Except Res Unit × HRRset × Heap)
  | 0, _, acc, accp, h => ok (.ok (), { s with val := { s.val with rdatas := acc }, items := accp }, h)
  | n + 1, off, acc, accp, h =>
    hCopyBytes { s with val := { s.val with rdatas := acc }, items := accp ++ List.replicate (n + 1) none } buf sz off 2 h fun b => do
      let rdlen := dec16 le b
      h.use s.rdatas
      let (d, h) := h.malloc
      hCopyBytes { s with val := { s.val with rdatas := acc }, items := accp ++ [some d] ++ List.replicate n none }
        buf sz (off + 2) rdlen h fun by_ =>
          hDeserializeRdatas le buf sz s n (off + 2 + rdlen) (acc ++ [⟨rdlen, by_⟩]) (accp ++ [some d]) h

/-- `wdns_deserialize_rrset` — wdns/deserialize_rrset.c:25-74.  Compare `deserializeRrset`.  Fields that have not been
read yet are 0 (line 41). -/
def hDeserializeRrset (le : Bool) (buf : List UInt8) (sz : Nat) (h : Heap) : Outcome (Except Res Unit × HRRset × Heap) :=
  hCopyBytes ⟨⟨0, 0, 0, ⟨0, []⟩, []⟩, none, none, []⟩ buf sz 0 1 h fun b =>
    let nlen := (b.headD 0).toNat
    let (nb, h) := h.malloc                                       -- line 47
    hCopyBytes ⟨⟨0, 0, 0, ⟨nlen, []⟩, []⟩, some nb, none, []⟩ buf sz 1 nlen h fun nm =>
    hCopyBytes ⟨⟨0, 0, 0, ⟨nlen, nm⟩, []⟩, some nb, none, []⟩ buf sz (1 + nlen) 2 h fun t =>
    hCopyBytes ⟨⟨0, dec16 le t, 0, ⟨nlen, nm⟩, []⟩, some nb, none, []⟩ buf sz (1 + nlen + 2) 2 h fun c =>
    hCopyBytes ⟨⟨0, dec16 le t, dec16 le c, ⟨nlen, nm⟩, []⟩, some nb, none, []⟩ buf sz (1 + nlen + 4) 4 h fun l =>
    hCopyBytes ⟨⟨dec32 le l, dec16 le t, dec16 le c, ⟨nlen, nm⟩, []⟩, some nb, none, []⟩ buf sz (1 + nlen + 8) 2 h fun k =>
    let (ab, h) := h.malloc                                       -- line 63
    hDeserializeRdatas le buf sz ⟨⟨dec32 le l, dec16 le t, dec16 le c, ⟨nlen, nm⟩, []⟩, some nb, some ab, []⟩
      (dec16 le k) (1 + nlen + 10) [] [] h

end Wdns
