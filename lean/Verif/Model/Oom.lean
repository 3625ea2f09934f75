import Verif.Model.TextHeap

/-!
# Model: running out of memory

The functions of `Model/Heap.lean` and `Model/TextHeap.lean` once more, with allocations that may fail.  Which allocations fail
is arbitrary: an `Alloc` says for each moment (the number of blocks handed out or refused so far) whether the request made then is refused.

There are two kinds of requests.  `my_malloc`, `my_calloc`, `my_realloc` (libmy/my_alloc.h:8-31) assert that the pointer is not `NULL`, so
a refusal is `abort`.  `malloc`, `calloc`, `strdup`, `strndup` return `NULL`; passing `NULL` to a function
that reads or writes its argument is `ub`.
-/

namespace Wdns
open Outcome

/-- Which requests are refused: `fails n` is for the request made after `n` others, `grows n` for enlarging
an octet buffer (libmy/vector.h:70-77) at that moment. -/
structure Alloc where
  fails : Nat → Bool
  grows : Nat → Bool

/-- `my_malloc`, `my_calloc` — libmy/my_alloc.h:8-22. -/
def Heap.myMalloc (F : Alloc) (h : Heap) : Outcome (Nat × Heap) :=
  if F.fails h.next then abort else ok h.malloc

/-- `my_realloc` — libmy/my_alloc.h:24-30. -/
def Heap.myRealloc (F : Alloc) (h : Heap) (p : Ptr) : Outcome (Nat × Heap) := do
  let h ← h.free p
  h.myMalloc F

/-- `malloc`, `calloc`, `strdup`, `strndup` of the C library. -/
def Heap.cMalloc (F : Alloc) (h : Heap) : Ptr × Heap :=
  if F.fails h.next then (none, ⟨h.next + 1, h.live⟩) else (some h.malloc.1, h.malloc.2)

/-- `_wdns_parse_rdata` — wdns/parse_rdata.c:110-345.  The buffer `u` (libmy/ubuf.h, libmy/vector.h) is two
blocks, created in line 144; growing it replaces its storage block, which is not modelled.  The result is the rdata
and its block (line 332). -/
def oParseRdata (F : Alloc) (mem : List UInt8) (p eop rdata rdlen rrtype rrclass : Nat) (h : Heap) :
    Outcome (Except Res (CRdata × Nat) × Heap) := do
  let (u, h) ← h.myMalloc F
  let (v, h) ← h.myMalloc F
  if F.grows h.next then abort else
  match parseRdata mem p eop rdata rdlen rrtype rrclass with
  | ok r => do
    let (d, h) ← h.myMalloc F
    h.use (some v)
    let h ← h.free (some v)
    let h ← h.free (some u)
    ok (.ok (r, d), h)
  | err e => do
    let h ← h.free (some v)
    let h ← h.free (some u)
    ok (.error e, h)
  | ub => ub
  | hang => hang
  | abort => abort

/-- `_wdns_parse_message_rr` — wdns/parse_message_rr.c:28-98.  Compare `parseMessageRr`. -/
def oParseMessageRr (F : Alloc) (sec : Nat) (mem : List UInt8) (p eop data : Nat) (h : Heap) :
    Outcome (Except Res (HRR × Nat) × Heap) :=
  match unpackName maxlenName mem p eop data with
  | ub => ub
  | hang => hang
  | abort => abort
  | err e => ok (.error e, h)                                     -- line 42
  | ok (nm, len) => do
    let (nb, h) ← h.myMalloc F                                       -- line 46
    let name : CName := ⟨len, nm.take len⟩
    let (src, _) ← skipName mem data eop
    if src + 4 > eop ∨ (sec ≠ 0 ∧ src + 10 > eop) then do
      let h ← h.free (some nb)                                    -- line 96
      ok (.error .parseError, h)
    else do
      let t0 ← rd mem src
      let t1 ← rd mem (src + 1)
      let c0 ← rd mem (src + 2)
      let c1 ← rd mem (src + 3)
      if sec = 0 then ok (.ok (⟨⟨0, be16 t0 t1, be16 c0 c1, name, none⟩, some nb, none⟩, src + 4 - data), h)
      else do
        let l0 ← rd mem (src + 4)
        let l1 ← rd mem (src + 5)
        let l2 ← rd mem (src + 6)
        let l3 ← rd mem (src + 7)
        let n0 ← rd mem (src + 8)
        let n1 ← rd mem (src + 9)
        let rdlen := be16 n0 n1
        if src + 10 + rdlen > eop then do
          let h ← h.free (some nb)
          ok (.error .overflow, h)
        else do
          let (r, h) ← oParseRdata F mem p eop (src + 10) rdlen (be16 t0 t1) (be16 c0 c1) h
          match r with
          | .error e => do
            let h ← h.free (some nb)
            ok (.error e, h)
          | .ok (rdata, rb) =>
            ok (.ok (⟨⟨be32 l0 l1 l2 l3, be16 t0 t1, be16 c0 c1, name, some rdata⟩, some nb, some rb⟩,
              src + 10 - data + rdlen), h)

/-- The search loop of wdns/insert_rr_rrset_array.c:59-83.  Compare `insertFind`. -/
def oInsertFind (F : Alloc) (blk : Ptr) (rr : HRR) (h : Heap) : List HRRset → Outcome (Option (List HRRset × Heap))
  | [] => ok none
  | s :: rest => do
    h.use blk                                                     -- line 61: a->rrsets[i - 1]
    h.use rr.name                                                 -- wdns/compare_rr_rrset.c:41
    h.use s.name                                                  -- wdns/compare_rr_rrset.c:46
    let m ← compareRrRrset rr.val s.val
    if m then
      if s.items.length + 1 ≥ 65536 then abort
      else
        match rr.val.rdata with
        | none => ub
        | some d => do
          let (ab, h) ← h.myRealloc F s.rdatas
          ok (some (⟨{ s.val with
              rdatas := s.val.rdatas ++ [d]
              rrttl := if rr.val.rrttl < s.val.rrttl then rr.val.rrttl else s.val.rrttl },
            s.name, some ab, s.items ++ [rr.rdata]⟩ :: rest, h))
    else do
      let r ← oInsertFind F blk rr h rest
      ok (r.map fun (l, h) => (s :: l, h))

/-- `_wdns_insert_rr_rrset_array` — wdns/insert_rr_rrset_array.c:28-119.  Compare `insertRr`. -/
def oInsertRr (F : Alloc) (a : HArr) (rr : HRR) (sec : Nat) (h : Heap) : Outcome (HArr × Heap) :=
  if a.rrs.length + 1 ≥ 65536 then abort
  else do
    let (rb, h) ← h.myRealloc F a.rrsBlk                              -- line 38
    let (nb, h) ← h.myMalloc F                                       -- line 46
    h.use rr.name                                                 -- line 47
    let newRr ← copyRR rr.val sec
    let (db, h) ← if sec ≠ 0 then do
        h.use rr.rdata                                            -- lines 51-53
        let (db, h) ← h.myMalloc F
        (ok (some db, h) : Outcome (Ptr × Heap))
      else ok (none, h)
    let found ← if sec = 0 then ok none else oInsertFind F a.rrsetsBlk rr h a.rrsets.reverse
    match found with
    | some (rs, h) => do
      -- line 73: rr->rdata = NULL; line 117: wdns_clear_rr
      let (_, h) ← hClearRr { rr with rdata := none } h
      ok (⟨a.rrs ++ [⟨newRr, some nb, db⟩], rs.reverse, some rb, a.rrsetsBlk⟩, h)
    | none =>
      if a.rrsets.length + 1 ≥ 65536 then abort
      else do
        let (sb, h) ← h.myRealloc F a.rrsetsBlk                       -- line 88
        let (ab, h) ← if sec ≠ 0 then do
            let (ab, h) ← h.myMalloc F                            -- line 100
            (ok (some ab, h) : Outcome (Ptr × Heap))
          else ok (none, h)
        let val : RRset := ⟨rr.val.rrttl, rr.val.rrtype, rr.val.rrclass, rr.val.name,
          if sec ≠ 0 then rr.val.rdata.toList else []⟩
        let rrset : HRRset := ⟨val, rr.name, ab, if sec ≠ 0 then [rr.rdata] else []⟩
        -- lines 107, 112: name and (outside the question section) rdata detached
        let (_, h) ← hClearRr { rr with name := none, rdata := if sec ≠ 0 then none else rr.rdata } h
        ok (⟨a.rrs ++ [⟨newRr, some nb, db⟩], a.rrsets ++ [rrset], some rb, some sb⟩, h)

/-- The inner loop — wdns/parse_message.c:43-70.  Compare `parseSection`. -/
def oParseSection (F : Alloc) (sec : Nat) (mem : List UInt8) (len : Nat) :
    Nat → HSecState → Heap → Outcome (Except Res Bool × HSecState × Heap)
  | 0, st, h => ok (.ok false, st, h)
  | n + 1, st, h =>
    if st.p = len then ok (.ok true, st, h)
    else do
      let (r, h) ← oParseMessageRr F sec mem 0 len st.p h
      match r with
      | .error e => ok (.error e, st, h)
      | .ok (rr, rrlen) =>
        if rr.val.rrtype = 41 ∧ st.hdr.edns.present = false then do
          let (hdr, opts, h) ← hParseEdns st.hdr rr h
          oParseSection F sec mem len n ⟨st.p + rrlen, st.arr, hdr, opts⟩ h
        else do
          let (arr, h) ← oInsertRr F st.arr rr sec h
          oParseSection F sec mem len n ⟨st.p + rrlen, arr, st.hdr, st.options⟩ h

/-- The outer loop — wdns/parse_message.c:42-71.  Compare `parseSections`.  The result has all sections, also on
failure (line 48). -/
def oParseSections (F : Alloc) (mem : List UInt8) (len : Nat) :
    List (Nat × Nat) → Nat → Hdr → Ptr → List HArr → Heap → Outcome (Except Res Unit × Hdr × Ptr × List HArr × Heap)
  | [], _, hdr, opts, done, h => ok (.ok (), hdr, opts, done, h)
  | (sec, count) :: rest, p, hdr, opts, done, h => do
    let (r, st, h) ← oParseSection F sec mem len count ⟨p, .empty, hdr, opts⟩ h
    match r with
    | .error e => ok (.error e, st.hdr, st.options, done ++ [st.arr] ++ rest.map fun _ => .empty, h)
    | .ok true => ok (.ok (), st.hdr, st.options, done ++ [st.arr] ++ rest.map fun _ => .empty, h)
    | .ok false => oParseSections F mem len rest st.p st.hdr st.options (done ++ [st.arr]) h

/-- `wdns_parse_message` — wdns/parse_message.c:18-78.  The result is the return value (`.ok ()` for
`wdns_res_success`), the message object and the heap. -/
def oParseMessage (F : Alloc) (mem : List UInt8) (len : Nat) (h : Heap) : Outcome (Except Res Unit × HMsg × Heap) :=
  if len < 12 then ok (.error .len, .zero, h)
  else do
    let hd ← rdN mem 0 12
    let g := fun i => be16 (hd.getD i 0) (hd.getD (i + 1) 0)
    let flags := g 2
    let (r, hdr, opts, secs, h) ← oParseSections F mem len [(0, g 4), (1, g 6), (2, g 8), (3, g 10)] 12
      ⟨.zero, flags % 16⟩ none [] h
    let m : HMsg := ⟨g 0, flags, hdr, opts, secs⟩
    match r with
    | .ok () => ok (.ok (), m, h)
    | .error e => do
      let (m, h) ← hClearMessage m h                              -- lines 49, 76
      ok (.error e, m, h)

/-- The rdata loop of wdns/deserialize_rrset.c:64-71; `accp` are the pointers stored so far, the other
elements of the array are `NULL` (line 63: `my_calloc`).  Compare `deserializeRdatas`. -/
def oDeserializeRdatas (F : Alloc) (le : Bool) (buf : List UInt8) (sz : Nat) (s : HRRset) :
    Nat → Nat → List CRdata → List Ptr → Heap → Outcome (Except Res Unit × HRRset × Heap)
  | 0, _, acc, accp, h => ok (.ok (), { s with val := { s.val with rdatas := acc }, items := accp }, h)
  | n + 1, off, acc, accp, h =>
    hCopyBytes { s with val := { s.val with rdatas := acc }, items := accp ++ List.replicate (n + 1) none } buf sz off 2 h fun b => do
      let rdlen := dec16 le b
      h.use s.rdatas
      let (d, h) ← h.myMalloc F
      hCopyBytes { s with val := { s.val with rdatas := acc }, items := accp ++ [some d] ++ List.replicate n none }
        buf sz (off + 2) rdlen h fun by_ =>
          oDeserializeRdatas F le buf sz s n (off + 2 + rdlen) (acc ++ [⟨rdlen, by_⟩]) (accp ++ [some d]) h

/-- `wdns_deserialize_rrset` — wdns/deserialize_rrset.c:25-74.  Compare `deserializeRrset`.  Fields that have not been
read yet are 0 (line 41). -/
def oDeserializeRrset (F : Alloc) (le : Bool) (buf : List UInt8) (sz : Nat) (h : Heap) : Outcome (Except Res Unit × HRRset × Heap) :=
  hCopyBytes ⟨⟨0, 0, 0, ⟨0, []⟩, []⟩, none, none, []⟩ buf sz 0 1 h fun b => do
    let nlen := (b.headD 0).toNat
    let (nb, h) ← h.myMalloc F                                       -- line 47
    hCopyBytes ⟨⟨0, 0, 0, ⟨nlen, []⟩, []⟩, some nb, none, []⟩ buf sz 1 nlen h fun nm =>
    hCopyBytes ⟨⟨0, 0, 0, ⟨nlen, nm⟩, []⟩, some nb, none, []⟩ buf sz (1 + nlen) 2 h fun t =>
    hCopyBytes ⟨⟨0, dec16 le t, 0, ⟨nlen, nm⟩, []⟩, some nb, none, []⟩ buf sz (1 + nlen + 2) 2 h fun c =>
    hCopyBytes ⟨⟨0, dec16 le t, dec16 le c, ⟨nlen, nm⟩, []⟩, some nb, none, []⟩ buf sz (1 + nlen + 4) 4 h fun l =>
    hCopyBytes ⟨⟨dec32 le l, dec16 le t, dec16 le c, ⟨nlen, nm⟩, []⟩, some nb, none, []⟩ buf sz (1 + nlen + 8) 2 h fun k => do
    let (ab, h) ← h.myMalloc F                                       -- line 63
    oDeserializeRdatas F le buf sz ⟨⟨dec32 le l, dec16 le t, dec16 le c, ⟨nlen, nm⟩, []⟩, some nb, some ab, []⟩
      (dec16 le k) (1 + nlen + 10) [] [] h

/-- `_wdns_str_to_name` — wdns/str_to_name.c:26-137: the name and its block, or the error.  Compare `strToNameGen`. -/
def oStrToNameGen (F : Alloc) (str : List UInt8) (downcase : Bool) (h : Heap) : Outcome (Except Res (CName × Nat) × Heap) :=
  if str.length = 0 ∨ (str.length = 1 ∧ str.head? = some 46) then
    h.myMalloc F >>= fun (b, h) =>                                      -- line 39
    ok (.ok (⟨1, [0]⟩, b), h)
  else
    h.myMalloc F >>= fun (b, h) =>                                      -- line 44
    match stnLoop maxlenName str downcase (str.length + 2) 0 str.length 0 1 [0] 0 with
    | ok n => ok (.ok (n, b), h)
    | err e => do
      let h ← h.free (some b)                                           -- line 135
      ok (.error e, h)
    | ub => ub
    | hang => hang
    | abort => abort

/-- `base64_str_to_ubuf` — wdns/str_to_rdata_ubuf.c:82-97. -/
def oBase64 (F : Alloc) (s : List UInt8) (h : Heap) : Outcome (List UInt8 × Heap) := do
  let (b, h) := h.cMalloc F                                             -- line 92: malloc
  h.use b                                                               -- libmy/b64_decode.c:31
  let r ← base64StrToBytes s
  h.use b                                                               -- line 94
  let h ← h.free b                                                      -- line 95
  ok (r, h)

/-- `case spr_ech` — wdns/str_to_rdata_ubuf.c:218-233.  Compare `svcEchTok`. -/
def oSvcEchTok (F : Alloc) (cval u : List UInt8) (h : Heap) : Outcome ((Res × Nat × List UInt8) × Heap) :=
  match (strtok (· = 32) cval []).head? with
  | none => ok ((.parseError, 0, u), h)
  | some tok =>
    if tok.length > 255 then ok ((.parseError, 0, u), h)
    else do
      let (b, h) ← oBase64 F tok h
      ok ((.success, b.length % 65536, u ++ b), h)

/-- `str_to_svcparam` — wdns/str_to_rdata_ubuf.c:140-341; only `case spr_ech` allocates.  Compare `strToSvcparam`. -/
def oStrToSvcparam (F : Alloc) (u : List UInt8) (key : Nat) (val : Option (List UInt8)) (h : Heap) : Outcome ((Res × List UInt8) × Heap) :=
  if key = 5 then
    match val with
    | none => ub
    | some v => do
      let ((r, n, u2), h) ← oSvcEchTok F (cstrOf v) (u ++ htons key ++ [0, 0]) h
      if r ≠ .success then ok ((r, u2), h) else ok ((.success, poke2 u2 (u ++ htons key).length (htons n)), h)
  else do
    let r ← strToSvcparam u key val
    ok (r, h)

/-- `case rdf_svcparams`, the loop — wdns/str_to_rdata_ubuf.c:948-1038.  Compare `sSvcparams`. -/
def oSvcparams (F : Alloc) : Nat → List UInt8 → List UInt8 → Heap → Outcome (FRes × Heap)
  | 0, _, _, _ => hang
  | fuel + 1, s, u, h =>
    match s with
    | [] => ok (.go (some []) u, h)
    | c :: cs =>
      if c = 32 then oSvcparams F fuel cs u h
      else do
        let key := s.takeWhile fun c => c ≠ 61 ∧ c ≠ 32
        let val := s.drop key.length
        let (d, h) := h.cMalloc F                                       -- line 976: strndup
        h.use d
        let k := strToSvcparamkey key
        let h ← h.free d                                                -- line 978
        if k = 65535 then ok (.bad .parseError u, h)
        else if val = [] ∨ val.head? = some 32 then
          if k ≠ 2 then ok (.bad .parseError u, h)
          else do
            let ((r, u), h) ← oStrToSvcparam F u k none h
            if r ≠ .success then ok (.bad r u, h) else oSvcparams F fuel val u h
        else
          let val := val.drop 1
          let r := rdataFromStrString val u
          if r.1 = 0 then ok (.bad .parseError r.2, h)
          else do
            let (d, h) := h.cMalloc F                                   -- line 1024: calloc
            h.use d                                                     -- line 1025
            let ((r', u), h) ← oStrToSvcparam F (r.2.take u.length) k (some (r.2.drop u.length)) h
            h.use d
            let h ← h.free d                                            -- line 1029
            if r' ≠ .success then ok (.bad r' u, h) else oSvcparams F fuel (val.drop r.1) u h

/-- `u16buf_add` — libmy/vector.h:88-99: the storage block, the number of elements and the capacity.  (The loop runs at
most once, because the capacity is at least the number of elements and not 0.) -/
def oU16Add (F : Alloc) (v n cap : Nat) (h : Heap) : Outcome ((Nat × Nat × Nat) × Heap) :=
  if n + 1 > cap then do
    let (v, h) ← h.myRealloc F (some v)
    ok ((v, n + 1, 2 * cap), h)
  else do
    h.use (some v)
    ok ((v, n + 1, cap), h)

/-- `case rdf_type_bitmap`, reading the list of types — wdns/str_to_rdata_ubuf.c:1057-1082.  `b` is the struct `rrtypes`, `v` its storage.
The result is the types and the storage, or the error (then `rrtypes` has been destroyed).  Compare `sTypes`. -/
def oTypes (F : Alloc) (b : Nat) : Nat → Option (List UInt8) → Nat → Nat → Nat → Heap → Outcome (Option (List Nat × Nat) × Heap)
  | 0, _, _, _, _, _ => hang
  | _ + 1, none, v, _, _, h => ok (some ([], v), h)
  | fuel + 1, some s, v, n, cap, h =>
    match s with
    | [] => ok (some ([], v), h)
    | c :: cs =>
      if isSpace c then oTypes F b fuel (some cs) v n cap h
      else do
        let (d, h) := h.cMalloc F                                       -- lines 1065, 1067: strndup, strdup
        h.use d
        let t ← strToRrtype (tokOf s)
        h.use d                                                         -- line 1072
        if t = 0 ∧ casecmp (tokOf s) (ascii "TYPE0") ≠ .eq then do
          let h ← h.free d                                              -- line 1073
          let h ← hU16Destroy b v h                                     -- line 1074
          ok (none, h)
        else do
          let h ← h.free d                                              -- line 1078
          let ((v, n, cap), h) ← oU16Add F v n cap h                      -- line 1080
          let (r, h) ← oTypes F b fuel (endPtr s) v n cap h
          ok (r.map (fun p => (t :: p.1, p.2)), h)

/-- `case rdf_type_bitmap` — wdns/str_to_rdata_ubuf.c:1041-1126.  Compare `sBitmap`. -/
def oBitmap (F : Alloc) (s u : List UInt8) (h : Heap) : Outcome (FRes × Heap) := do
  let (b, h) ← h.myMalloc F                                                -- line 1051: u16buf_init
  let (v, h) ← h.myMalloc F
  match ← oTypes F b (s.length + 2) (some s) v 0 16 h with
  | (none, h) => ok (.bad .parseError u, h)
  | (some (ts, v), h) => do
    h.use (some v)                                                      -- lines 1083, 1091
    let h ← hU16Destroy b v h                                           -- line 1124
    ok (.go none (bmLoop (qsort16 ts) 0 0 (List.replicate 32 0) 65536 u), h)

/-- `case rdf_ipv6prefix` after the prefix length — wdns/str_to_rdata_ubuf.c:536-575.  Compare `sPrefixAddr`. -/
def oPrefixAddr (F : Alloc) (pl : Nat) (s u : List UInt8) (h : Heap) : Outcome (FRes × Heap) :=
  if s = [] then ok (.bad .parseError u, h)
  else do
    let oclen := (128 - pl) / 8 + (if pl % 8 ≠ 0 then 1 else 0)
    let (d, h) := h.cMalloc F                                           -- lines 561, 563: strndup, strdup
    h.use d                                                             -- line 566
    let h ← h.free d                                                    -- line 567
    match inetPton6 (tokOf s) with
    | some addr =>
      let u := u ++ addr.drop (16 - oclen)
      if pl = 0 ∧ endPtr s ≠ none then
        if (afterTok s).dropWhile isSpace ≠ [] then ok (.bad .parseError u, h) else ok (.go none u, h)
      else ok (.go (endPtr s) u, h)
    | none => if pl ≠ 128 then ok (.bad .parseError u, h) else ok (.go (some s) u, h)

/-- `case rdf_ipv6prefix` — wdns/str_to_rdata_ubuf.c:510-575.  Compare `sPrefix`. -/
def oPrefix (F : Alloc) (s u : List UInt8) (h : Heap) : Outcome (FRes × Heap) :=
  if (tokOf s).all isDigit then
    match scanfU 8 s with
    | .eof => ub
    | .nomatch => ok (.bad .parseError u, h)
    | .val pl =>
      if pl > 128 then ok (.bad .parseError u, h)
      else oPrefixAddr F pl ((afterTok s).dropWhile isSpace) (u ++ [UInt8.ofNat pl]) h
  else ok (.bad .parseError u, h)

/-- One field: the `switch` of wdns/str_to_rdata_ubuf.c:438-1131.  Compare `sField`. -/
def oField (F : Alloc) (t : Rdf) (s u : List UInt8) (h : Heap) : Outcome (FRes × Heap) :=
  match t with
  | .name | .uname => do
    let (sb, h) := h.cMalloc F                                          -- lines 448, 450: strndup, strdup
    let (nb, h) := h.cMalloc F                                          -- line 452: calloc
    h.use sb                                                            -- wdns/str_to_name.c:35
    h.use nb                                                            -- wdns/str_to_name.c:36
    match ← oStrToNameGen F (tokOf s) false h with
    | (.error e, h) => do
      let h ← h.free sb                                          -- line 456
      let h ← h.free nb                                          -- line 457
      ok (.bad e u, h)
    | (.ok (n, db), h) => do
      h.use nb                                                   -- line 461
      h.use (some db)
      let h ← h.free sb                                          -- line 464
      h.use nb                                                   -- line 465
      let h ← h.free (some db)                                          -- line 466
      let h ← h.free nb                                          -- line 468
      ok (.go (endPtr s) (u ++ n.data), h)
  | .bytesB64 => do
    let (b, h) ← oBase64 F s h
    ok (.go (some (s.drop b.length)) (u ++ b), h)
  | .ipv6prefix => oPrefix F s u h
  | .hash =>
    if (tokOf s).length = 1 then ok (.go (some (s.drop 1)) (u ++ [0]), h)
    else do
      let (b, h) := h.cMalloc F                                         -- line 652: malloc
      h.use b                                                           -- line 653: base32_decode writes to it
      match base32Decode (tokOf s).length (tokOf s) with
      | none => do
        let h ← h.free b                                         -- line 657
        ok (.bad .parseError u, h)
      | some w =>
        if w.length > 255 then do
          let h ← h.free b                                       -- line 657
          ok (.bad .parseError u, h)
        else do
          h.use b                                                -- line 662
          let h ← h.free b                                       -- line 663
          ok (.go (some (afterTok s)) (u ++ [UInt8.ofNat w.length] ++ w), h)
  | .ipv4 | .ipv6 => do
    let (d, h) := h.cMalloc F                                           -- lines 767, 790, 792: strdup, strndup
    h.use d
    let r ← sField t s u
    let h ← h.free d                                             -- lines 770, 795
    ok (r, h)
  | .rrtype => do
    let (d, h) := h.cMalloc F                                           -- lines 919, 921: strndup, strdup
    h.use d
    let t ← strToRrtype (tokOf s)
    let h ← h.free d                                             -- line 924
    if t = 0 then ok (.bad .parseError u, h) else ok (.go (endPtr s) (u ++ htons t), h)
  | .svcparams => oSvcparams F (s.length + 1) s u h
  | .typeBitmap => oBitmap F s u h
  | .bytes | .bytesStr | .salt | .int8 | .int16 | .int32 | .eui48 | .eui64 | .string | .repstring | .ednsOptRdata => do
    let r ← sField t s u                                                -- no allocation
    ok (r, h)

/-- The loop over the field types — wdns/str_to_rdata_ubuf.c:424-1132.  Compare `sFields`. -/
def oFields (F : Alloc) : List Rdf → Option (List UInt8) → List UInt8 → Heap → Outcome (FRes × Heap)
  | [], s, u, h => ok (.go s u, h)
  | _ :: _, none, u, h => ok (.go none u, h)
  | t :: ts, some s, u, h =>
    if s.dropWhile isSpace = [] then ok (.go (some []) u, h)
    else do
      match ← oField F t (s.dropWhile isSpace) u h with
      | (.go s u, h) => if F.grows h.next then abort else oFields F ts s u h
      | (.bad r u, h) => ok (.bad r u, h)

/-- `_wdns_str_to_rdata_ubuf` — wdns/str_to_rdata_ubuf.c:350-1139.  Compare `strToRdataUbuf`. -/
def oStrToRdataUbuf (F : Alloc) (u s : List UInt8) (rrtype rrclass : Nat) (h : Heap) : Outcome ((Res × List UInt8) × Heap) := do
  let (r, h) ← (match recordDescr rrtype with
    | none => do
      let r ← sUnknown s u
      ok (r, h)
    | some d => if d.applies rrclass then oFields F d.types (some s) u h else ok (.go (some s) u, h))
  match r with
  | .go _ u => ok ((.success, u), h)
  | .bad e u' => ok ((e, u'.take u.length), h)

/-- `ubuf_new` — libmy/ubuf.h:34-38, libmy/vector.h:30-39. -/
def oUbufNew (F : Alloc) (h : Heap) : Outcome (HUbuf × Heap) := do
  let (b, h) ← h.myMalloc F
  let (v, h) ← h.myMalloc F
  ok (⟨b, v⟩, h)

/-- `ubuf_detach` — libmy/vector.h:55-64: the storage goes to the caller, and the buffer gets a new one. -/
def oUbufDetach (F : Alloc) (u : HUbuf) (h : Heap) : Outcome (Nat × HUbuf × Heap) := do
  h.use (some u.obj)
  let (v, h) ← h.myMalloc F
  ok (u.vec, { u with vec := v }, h)

/-- `wdns_str_to_rdata` — wdns/rdata_to_str.c:33-47: the result code, the octets and the block handed out.  Compare `strToRdata`. -/
def oStrToRdata (F : Alloc) (s : List UInt8) (rrtype rrclass : Nat) (h : Heap) : Outcome (Except Res (List UInt8 × Nat) × Heap) := do
  let (u, h) ← oUbufNew F h                                              -- line 39
  let ((r, w), h) ← oStrToRdataUbuf F [] s rrtype rrclass h
  if r = .success then do
    let (b, u, h) ← oUbufDetach F u h                                     -- line 42
    let h ← hUbufDestroy u h                                            -- line 44
    ok (.ok (w, b), h)
  else do
    let h ← hUbufDestroy u h
    ok (.error r, h)

/-! ## Writing rdata -/

/-- `bytes_to_ubuf_base64` — wdns/rdata_to_ubuf.c:61-82.  Compare `bytesToBase64`. -/
def oBytesToBase64 (F : Alloc) (bs : List UInt8) (h : Heap) : Outcome (List UInt8 × Heap) := do
  let (b, h) := h.cMalloc F                                             -- line 72: malloc
  if bs = [] then ok () else h.use b                                    -- libmy/b64_encode.c writes to it
  let t ← bytesToBase64 bs
  let h ← h.free b
  ok (t, h)

/-- `svcparam_to_str` — wdns/rdata_to_ubuf.c:88-292.  Compare `svcparamToStr`. -/
def oSvcparamToStr (F : Alloc) (key : Nat) (v u : List UInt8) (h : Heap) : Outcome ((List UInt8 × Res) × Heap) :=
  if key = 5 then do
    let (t, h) ← oBytesToBase64 F v h
    ok ((u ++ t ++ [32], .success), h)
  else do
    let r ← svcparamToStr key v u
    ok (r, h)

/-- `bytes_required` as in `need`, with the heap. -/
def oNeed (st : TState) (n : Nat) (h : Heap) (k : Outcome (TRes × Heap)) : Outcome (TRes × Heap) :=
  if st.bytes < n then ok (.bad none st.u, h) else k

/-- `case rdf_svcparams` — wdns/rdata_to_ubuf.c:567-628.  Compare `tSvcparams`. -/
def oTSvcparams (F : Alloc) (mem : List UInt8) : Nat → TState → Heap → Outcome (TRes × Heap)
  | 0, _, _ => hang
  | fuel + 1, st, h =>
    if st.bytes > 0 then
      oNeed st 2 h do
        let k0 ← rd mem st.src
        let k1 ← rd mem (st.src + 1)
        let key := be16 k0 k1
        if key = 65535 then ok (.bad none st.u, h)
        else
          let u := uAddCstr st.u (svcparamkeyToStr key ++ if key ≠ 2 then [61] else [])
          let st : TState := ⟨st.src + 2, st.bytes - 2, u⟩
          oNeed st 2 h do
            let l0 ← rd mem st.src
            let l1 ← rd mem (st.src + 1)
            let len := be16 l0 l1
            let st : TState := ⟨st.src + 2, st.bytes - 2, st.u⟩
            oNeed st len h do
              let v ← rdN mem st.src len
              let ((u, r), h) ← oSvcparamToStr F key v st.u h
              if r ≠ .success then ok (.bad (some r) u, h)
              else oTSvcparams F mem fuel ⟨st.src + len, st.bytes - len, u⟩ h
    else ok (.go st, h)

/-- One field: the `switch` of wdns/rdata_to_ubuf.c:353-733.  Compare `tField`. -/
def oTField (F : Alloc) (mem : List UInt8) (t : Rdf) (st : TState) (h : Heap) : Outcome (TRes × Heap) :=
  match t with
  | .bytesB64 => do
    let bs ← rdN mem st.src (st.bytes % 65536).toNat
    let (t, h) ← oBytesToBase64 F bs h
    ok (.go ⟨st.src, 0, st.u ++ t⟩, h)
  | .svcparams => oTSvcparams F mem (st.bytes.toNat + 1) st h
  | t => do
    let r ← tField mem t st                                             -- no allocation
    ok (r, h)

/-- The loop over the field types — wdns/rdata_to_ubuf.c:349-734.  Compare `tFields`. -/
def oTFields (F : Alloc) (mem : List UInt8) : List Rdf → TState → Heap → Outcome (TRes × Heap)
  | [], st, h => ok (.go st, h)
  | t :: ts, st, h =>
    if st.bytes = 0 then ok (.go st, h)
    else do
      match ← oTField F mem t st h with
      | (.go st, h) => if F.grows h.next then abort else oTFields F mem ts st h
      | (r, h) => ok (r, h)

/-- `_wdns_rdata_to_ubuf` — wdns/rdata_to_ubuf.c:294-749.  Compare `rdataToUbuf`. -/
def oRdataToUbuf (F : Alloc) (u mem : List UInt8) (rdlen rrtype rrclass : Nat) (h : Heap) : Outcome (List UInt8 × Heap) :=
  match recordDescr rrtype with
  | none =>
    if F.grows h.next then abort else do
    let t ← decStr rdlen 6
    let bs ← rdN mem 0 rdlen
    let t ← hexRun false 6 [32] bs (u ++ ascii "\\# " ++ t ++ [32])
    ok (t, h)
  | some d =>
    if d.applies rrclass then do
      match ← oTFields F mem d.types ⟨0, rdlen, u⟩ h with
      | (.go st, h) => ok (Spec.stripLast 32 st.u, h)
      | (.bad none u, h) => ok (uAddCstr u (ascii " ### PARSE ERROR ###"), h)
      | (.bad (some r) u, h) => ok (uAddCstr u (ascii " ### PARSE ERROR #" ++ fmtU r.toNat ++ ascii " ###"), h)
    else ok (u, h)

/-- `wdns_rdata_to_str` — wdns/rdata_to_str.c:17-31: the C string and its block.  Compare `rdataToStr`, `hToStr`. -/
def oRdataToStr (F : Alloc) (mem : List UInt8) (rdlen rrtype rrclass : Nat) (h : Heap) : Outcome ((List UInt8 × Nat) × Heap) := do
  let (u, h) ← oUbufNew F h
  let (t, h) ← oRdataToUbuf F [] mem rdlen rrtype rrclass h
  if F.grows h.next then abort else do
  let (b, u, h) ← oUbufDetach F u h
  let h ← hUbufDestroy u h
  ok ((cstrOf t, b), h)

end Wdns
