import Verif.Model.Heap
import Verif.Model.FromText
import Verif.Model.File

/-!
# Model: ownership of heap blocks in the functions that read and write text

wdns/str_to_name.c, wdns/str_to_rdata_ubuf.c, wdns/rdata_to_str.c, wdns/rr_to_str.c, wdns/rrset_to_str.c,
wdns/rrset_array_to_str.c, wdns/message_to_str.c, wdns/file_load_names.c and wdns/print_*.c once more, with every allocation and release.
The heap is that of `Model/Heap.lean`: the set of live blocks, without their contents; what the functions compute is what the
other models say.  Growing the buffer `u` replaces its storage block; this is modelled for the list of types
(`u16buf`) and left out for `ubuf`s (as in `hParseRdata`).
-/

namespace Wdns
open Outcome

/-! ## wdns/str_to_name.c -/

/-- `_wdns_str_to_name` — wdns/str_to_name.c:26-137: the name and its block, or the error.  Compare `strToNameGen`. -/
def hStrToNameGen (str : List UInt8) (downcase : Bool) (h : Heap) : Outcome (Except Res (CName × Nat) × Heap) :=
  if str.length = 0 ∨ (str.length = 1 ∧ str.head? = some 46) then
    let (b, h) := h.malloc                                              -- line 39
    ok (.ok (⟨1, [0]⟩, b), h)
  else
    let (b, h) := h.malloc                                              -- line 44
    match stnLoop maxlenName str downcase (str.length + 2) 0 str.length 0 1 [0] 0 with
    | ok n => ok (.ok (n, b), h)
    | err e => do
      let h ← h.free (some b)                                           -- line 135
      ok (.error e, h)
    | ub => ub
    | hang => hang
    | abort => abort

/-! ## wdns/str_to_rdata_ubuf.c -/

/-- `base64_str_to_ubuf` — wdns/str_to_rdata_ubuf.c:82-97. -/
def hBase64 (s : List UInt8) (h : Heap) : Outcome (List UInt8 × Heap) := do
  let (b, h) := h.malloc                                                -- line 92
  let r ← base64StrToBytes s
  h.use (some b)                                                        -- line 94
  let h ← h.free (some b)                                               -- line 95
  ok (r, h)

/-- `case spr_ech` — wdns/str_to_rdata_ubuf.c:218-233.  Compare `svcEchTok`. -/
def hSvcEchTok (cval u : List UInt8) (h : Heap) : Outcome ((Res × Nat × List UInt8) × Heap) :=
  match (strtok (· = 32) cval []).head? with
  | none => ok ((.parseError, 0, u), h)
  | some tok =>
    if tok.length > 255 then ok ((.parseError, 0, u), h)
    else do
      let (b, h) ← hBase64 tok h
      ok ((.success, b.length % 65536, u ++ b), h)

/-- `str_to_svcparam` — wdns/str_to_rdata_ubuf.c:140-341; only `case spr_ech` allocates.  Compare `strToSvcparam`. -/
def hStrToSvcparam (u : List UInt8) (key : Nat) (val : Option (List UInt8)) (h : Heap) : Outcome ((Res × List UInt8) × Heap) :=
  if key = 5 then
    match val with
    | none => ub
    | some v => do
      let ((r, n, u2), h) ← hSvcEchTok (cstrOf v) (u ++ htons key ++ [0, 0]) h
      if r ≠ .success then ok ((r, u2), h) else ok ((.success, poke2 u2 (u ++ htons key).length (htons n)), h)
  else do
    let r ← strToSvcparam u key val
    ok (r, h)

/-- `case rdf_svcparams`, the loop — wdns/str_to_rdata_ubuf.c:948-1038.  Compare `sSvcparams`. -/
def hSvcparams : Nat → List UInt8 → List UInt8 → Heap → Outcome (FRes × Heap)
  | 0, _, _, _ => hang
  | fuel + 1, s, u, h =>
    match s with
    | [] => ok (.go (some []) u, h)
    | c :: cs =>
      if c = 32 then hSvcparams fuel cs u h
      else do
        let key := s.takeWhile fun c => c ≠ 61 ∧ c ≠ 32
        let val := s.drop key.length
        let (d, h) := h.malloc                                          -- line 976
        h.use (some d)
        let k := strToSvcparamkey key
        let h ← h.free (some d)                                         -- line 978
        if k = 65535 then ok (.bad .parseError u, h)
        else if val = [] ∨ val.head? = some 32 then
          if k ≠ 2 then ok (.bad .parseError u, h)
          else do
            let ((r, u), h) ← hStrToSvcparam u k none h
            if r ≠ .success then ok (.bad r u, h) else hSvcparams fuel val u h
        else
          let val := val.drop 1
          let r := rdataFromStrString val u
          if r.1 = 0 then ok (.bad .parseError r.2, h)
          else do
            let (d, h) := h.malloc                                      -- line 1024
            let ((r', u), h) ← hStrToSvcparam (r.2.take u.length) k (some (r.2.drop u.length)) h
            h.use (some d)
            let h ← h.free (some d)                                     -- line 1029
            if r' ≠ .success then ok (.bad r' u, h) else hSvcparams fuel (val.drop r.1) u h

/-- `u16buf_add` — libmy/vector.h:88-99: the storage block, the number of elements and the capacity.  (The loop runs at
most once, because the capacity is at least the number of elements and not 0.) -/
def hU16Add (v n cap : Nat) (h : Heap) : Outcome ((Nat × Nat × Nat) × Heap) :=
  if n + 1 > cap then do
    let (v, h) ← h.realloc (some v)
    ok ((v, n + 1, 2 * cap), h)
  else do
    h.use (some v)
    ok ((v, n + 1, cap), h)

/-- `u16buf_destroy` — libmy/vector.h:68-75; `b` is the struct. -/
def hU16Destroy (b v : Nat) (h : Heap) : Outcome Heap := do
  let h ← h.free (some v)
  h.free (some b)

/-- `case rdf_type_bitmap`, reading the list of types — wdns/str_to_rdata_ubuf.c:1057-1082.  `b` is the struct `rrtypes`, `v` its storage.
The result is the types and the storage, or the error (then `rrtypes` has been destroyed).  Compare `sTypes`. -/
def hTypes (b : Nat) : Nat → Option (List UInt8) → Nat → Nat → Nat → Heap → Outcome (Option (List Nat × Nat) × Heap)
  | 0, _, _, _, _, _ => hang
  | _ + 1, none, v, _, _, h => ok (some ([], v), h)
  | fuel + 1, some s, v, n, cap, h =>
    match s with
    | [] => ok (some ([], v), h)
    | c :: cs =>
      if isSpace c then hTypes b fuel (some cs) v n cap h
      else do
        let (d, h) := h.malloc                                          -- lines 1065, 1067
        let t ← strToRrtype (tokOf s)
        h.use (some d)                                                  -- line 1072
        if t = 0 ∧ casecmp (tokOf s) (ascii "TYPE0") ≠ .eq then do
          let h ← h.free (some d)                                       -- line 1073
          let h ← hU16Destroy b v h                                     -- line 1074
          ok (none, h)
        else do
          let h ← h.free (some d)                                       -- line 1078
          let ((v, n, cap), h) ← hU16Add v n cap h                      -- line 1080
          let (r, h) ← hTypes b fuel (endPtr s) v n cap h
          ok (r.map (fun p => (t :: p.1, p.2)), h)

/-- `case rdf_type_bitmap` — wdns/str_to_rdata_ubuf.c:1041-1126.  Compare `sBitmap`. -/
def hBitmap (s u : List UInt8) (h : Heap) : Outcome (FRes × Heap) := do
  let (b, h) := h.malloc                                                -- line 1051: u16buf_init
  let (v, h) := h.malloc
  match ← hTypes b (s.length + 2) (some s) v 0 16 h with
  | (none, h) => ok (.bad .parseError u, h)
  | (some (ts, v), h) => do
    h.use (some v)                                                      -- lines 1083, 1091
    let h ← hU16Destroy b v h                                           -- line 1124
    ok (.go none (bmLoop (qsort16 ts) 0 0 (List.replicate 32 0) 65536 u), h)

/-- `case rdf_ipv6prefix` after the prefix length — wdns/str_to_rdata_ubuf.c:536-575.  Compare `sPrefixAddr`. -/
def hPrefixAddr (pl : Nat) (s u : List UInt8) (h : Heap) : Outcome (FRes × Heap) :=
  if s = [] then ok (.bad .parseError u, h)
  else do
    let oclen := (128 - pl) / 8 + (if pl % 8 ≠ 0 then 1 else 0)
    let (d, h) := h.malloc                                              -- lines 561, 563
    h.use (some d)                                                      -- line 566
    let h ← h.free (some d)                                             -- line 567
    match inetPton6 (tokOf s) with
    | some addr =>
      let u := u ++ addr.drop (16 - oclen)
      if pl = 0 ∧ endPtr s ≠ none then
        if (afterTok s).dropWhile isSpace ≠ [] then ok (.bad .parseError u, h) else ok (.go none u, h)
      else ok (.go (endPtr s) u, h)
    | none => if pl ≠ 128 then ok (.bad .parseError u, h) else ok (.go (some s) u, h)

/-- `case rdf_ipv6prefix` — wdns/str_to_rdata_ubuf.c:510-575.  Compare `sPrefix`. -/
def hPrefix (s u : List UInt8) (h : Heap) : Outcome (FRes × Heap) :=
  if (tokOf s).all isDigit then
    match scanfU 8 s with
    | .eof => ub
    | .nomatch => ok (.bad .parseError u, h)
    | .val pl =>
      if pl > 128 then ok (.bad .parseError u, h)
      else hPrefixAddr pl ((afterTok s).dropWhile isSpace) (u ++ [UInt8.ofNat pl]) h
  else ok (.bad .parseError u, h)

/-- One field: the `switch` of wdns/str_to_rdata_ubuf.c:438-1131.  Compare `sField`. -/
def hField (t : Rdf) (s u : List UInt8) (h : Heap) : Outcome (FRes × Heap) :=
  match t with
  | .name | .uname => do
    let (sb, h) := h.malloc                                             -- lines 448, 450
    let (nb, h) := h.malloc                                             -- line 452
    h.use (some sb)
    match ← hStrToNameGen (tokOf s) false h with
    | (.error e, h) => do
      let h ← h.free (some sb)                                          -- line 456
      let h ← h.free (some nb)                                          -- line 457
      ok (.bad e u, h)
    | (.ok (n, db), h) => do
      h.use (some nb)                                                   -- line 461
      h.use (some db)
      let h ← h.free (some sb)                                          -- line 464
      h.use (some nb)                                                   -- line 465
      let h ← h.free (some db)                                          -- line 466
      let h ← h.free (some nb)                                          -- line 468
      ok (.go (endPtr s) (u ++ n.data), h)
  | .bytesB64 => do
    let (b, h) ← hBase64 s h
    ok (.go (some (s.drop b.length)) (u ++ b), h)
  | .ipv6prefix => hPrefix s u h
  | .hash =>
    if (tokOf s).length = 1 then ok (.go (some (s.drop 1)) (u ++ [0]), h)
    else do
      let (b, h) := h.malloc                                            -- line 652
      match base32Decode (tokOf s).length (tokOf s) with
      | none => do
        let h ← h.free (some b)                                         -- line 657
        ok (.bad .parseError u, h)
      | some w =>
        if w.length > 255 then do
          let h ← h.free (some b)                                       -- line 657
          ok (.bad .parseError u, h)
        else do
          h.use (some b)                                                -- line 662
          let h ← h.free (some b)                                       -- line 663
          ok (.go (some (afterTok s)) (u ++ [UInt8.ofNat w.length] ++ w), h)
  | .ipv4 | .ipv6 => do
    let (d, h) := h.malloc                                              -- lines 767, 790, 792
    h.use (some d)
    let r ← sField t s u
    let h ← h.free (some d)                                             -- lines 770, 795
    ok (r, h)
  | .rrtype => do
    let (d, h) := h.malloc                                              -- lines 919, 921
    h.use (some d)
    let t ← strToRrtype (tokOf s)
    let h ← h.free (some d)                                             -- line 924
    if t = 0 then ok (.bad .parseError u, h) else ok (.go (endPtr s) (u ++ htons t), h)
  | .svcparams => hSvcparams (s.length + 1) s u h
  | .typeBitmap => hBitmap s u h
  | .bytes | .bytesStr | .salt | .int8 | .int16 | .int32 | .eui48 | .eui64 | .string | .repstring | .ednsOptRdata => do
    let r ← sField t s u                                                -- no allocation
    ok (r, h)

/-- The loop over the field types — wdns/str_to_rdata_ubuf.c:424-1132.  Compare `sFields`. -/
def hFields : List Rdf → Option (List UInt8) → List UInt8 → Heap → Outcome (FRes × Heap)
  | [], s, u, h => ok (.go s u, h)
  | _ :: _, none, u, h => ok (.go none u, h)
  | t :: ts, some s, u, h =>
    if s.dropWhile isSpace = [] then ok (.go (some []) u, h)
    else do
      match ← hField t (s.dropWhile isSpace) u h with
      | (.go s u, h) => hFields ts s u h
      | (.bad r u, h) => ok (.bad r u, h)

/-- `_wdns_str_to_rdata_ubuf` — wdns/str_to_rdata_ubuf.c:350-1139.  Compare `strToRdataUbuf`. -/
def hStrToRdataUbuf (u s : List UInt8) (rrtype rrclass : Nat) (h : Heap) : Outcome ((Res × List UInt8) × Heap) := do
  let (r, h) ← (match recordDescr rrtype with
    | none => do
      let r ← sUnknown s u
      ok (r, h)
    | some d => if d.applies rrclass then hFields d.types (some s) u h else ok (.go (some s) u, h))
  match r with
  | .go _ u => ok ((.success, u), h)
  | .bad e u' => ok ((e, u'.take u.length), h)

/-- A `ubuf`: its struct and its storage block — libmy/vector.h:24-27. -/
structure HUbuf where
  obj : Nat
  vec : Nat

/-- `ubuf_new` — libmy/ubuf.h:34-38, libmy/vector.h:30-39. -/
def hUbufNew (h : Heap) : HUbuf × Heap :=
  let (b, h) := h.malloc
  let (v, h) := h.malloc
  (⟨b, v⟩, h)

/-- `ubuf_detach` — libmy/vector.h:55-64: the storage goes to the caller, and the buffer gets a new one. -/
def hUbufDetach (u : HUbuf) (h : Heap) : Outcome (Nat × HUbuf × Heap) := do
  h.use (some u.obj)
  let (v, h) := h.malloc
  ok (u.vec, { u with vec := v }, h)

/-- `ubuf_destroy` — libmy/vector.h:68-75. -/
def hUbufDestroy (u : HUbuf) (h : Heap) : Outcome Heap := do
  h.use (some u.obj)
  let h ← h.free (some u.vec)
  h.free (some u.obj)

/-- `wdns_str_to_rdata` — wdns/rdata_to_str.c:33-47: the result code, the octets and the block handed out.  Compare `strToRdata`. -/
def hStrToRdata (s : List UInt8) (rrtype rrclass : Nat) (h : Heap) : Outcome (Except Res (List UInt8 × Nat) × Heap) := do
  let (u, h) := hUbufNew h                                              -- line 39
  let ((r, w), h) ← hStrToRdataUbuf [] s rrtype rrclass h
  if r = .success then do
    let (b, u, h) ← hUbufDetach u h                                     -- line 42
    let h ← hUbufDestroy u h                                            -- line 44
    ok (.ok (w, b), h)
  else do
    let h ← hUbufDestroy u h
    ok (.error r, h)

/-! ## Writing text -/

/-- The common frame of `wdns_rdata_to_str`, `wdns_rr_to_str`, `wdns_rrset_to_str`, `wdns_rrset_array_to_str` —
wdns/rdata_to_str.c:17-31, wdns/rr_to_str.c:17-30, wdns/rrset_to_str.c:17-30, wdns/rrset_array_to_str.c:17-30: `text` is what
is rendered into the buffer.  (`bytes_to_ubuf_base64`, the only function that allocates while rendering, frees its block on its
only path, wdns/rdata_to_ubuf.c:72-80.) -/
def hToStr (text : Outcome (List UInt8)) (h : Heap) : Outcome ((List UInt8 × Nat) × Heap) := do
  let (u, h) := hUbufNew h
  let t ← text
  let (b, u, h) ← hUbufDetach u h
  let h ← hUbufDestroy u h
  ok ((t, b), h)

/-- The buffer for the EDNS options in `wdns_message_to_str` — wdns/message_to_str.c:70-85. -/
def hMsgEdns (e : Edns) (h : Heap) : Outcome (List UInt8 × Heap) :=
  if e.present ∧ e.options ≠ none then do
    let (u, h) := hUbufNew h                                            -- line 74
    let t ← msgEdns e
    h.use (some u.vec)                                                  -- lines 77-83
    let h ← hUbufDestroy u h                                            -- line 84
    ok (t, h)
  else do
    let t ← msgEdns e
    ok (t, h)

/-- `wdns_message_to_str` — wdns/message_to_str.c:18-102.  Compare `messageToStr`. -/
def hMessageToStr (m : Message) (h : Heap) : Outcome ((List UInt8 × Nat) × Heap) := do
  let (u, h) := hUbufNew h                                              -- line 27
  let (_, h) ← hMsgEdns m.edns h
  let t ← messageToStr m
  let (b, u, h) ← hUbufDetach u h                                       -- line 99
  let h ← hUbufDestroy u h                                              -- line 100
  ok ((t, b), h)

/-- `wdns_print_message`, `wdns_print_rr`, `wdns_print_rrset`, `wdns_print_rrset_array` — wdns/print_message.c:17-27, print_rr.c:17-27,
print_rrset.c:17-27, print_rrset_array.c:17-27.  `str` is the call of the function that renders; `out` is what has been written to the
stream (writing does not fail). -/
def hPrint (str : Heap → Outcome ((List UInt8 × Nat) × Heap)) (out : List UInt8) (h : Heap) : Outcome (List UInt8 × Heap) := do
  let ((t, b), h) ← str h
  h.use (some b)                                                        -- fputs
  let h ← h.free (some b)                                               -- my_free
  ok (out ++ t, h)

/-! ## wdns/file_load_names.c -/

/-- The loop — wdns/file_load_names.c:34-43: the names given to the callback with their blocks, and the result.  The callback
becomes the owner of the block.  Compare `loadLoop`. -/
def hLoadLoop : Nat → List UInt8 → Heap → Outcome ((List (CName × Nat) × Res) × Heap)
  | 0, _, _ => hang
  | fuel + 1, f, h =>
    match fgets 1280 f with
    | none => ok (([], .success), h)
    | some (line, rest) =>
      let c := line.getD 0 0
      if c = 10 ∨ c = 32 ∨ c = 35 then hLoadLoop fuel rest h
      else
        let s := cstrOf line
        if s = [] then ub
        else do
          match ← hStrToNameGen (if s.getLast? = some 10 then s.dropLast else s) true h with
          | (.error e, h) => ok (([], e), h)
          | (.ok n, h) => do
            let (r, h) ← hLoadLoop fuel rest h
            ok ((n :: r.1, r.2), h)

/-- `wdns_file_load_names` — wdns/file_load_names.c:17-47.  The open file counts as a block.  Compare `fileLoadNames`. -/
def hFileLoadNames (file : Option (List UInt8)) (h : Heap) : Outcome ((List (CName × Nat) × Res) × Heap) :=
  match file with
  | none => ok (([], .failure), h)
  | some f => do
    let (fp, h) := h.malloc                                             -- line 27: fopen
    let (r, h) ← hLoadLoop (f.length + 1) f h
    let h ← h.free (some fp)                                            -- line 45: fclose
    ok (r, h)

end Wdns
