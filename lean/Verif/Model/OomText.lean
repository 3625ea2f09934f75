import Verif.Model.Oom
import Verif.Model.File

/-!
# Model: running out of memory while records and messages are written as text, and while names are loaded

The functions of `Model/ToText.lean` that render records, RRsets, sections and messages, and `wdns_file_load_names`, once more, with
requests for memory that may be refused (see `Model/Oom.lean`).
-/

namespace Wdns
open Outcome

/-- `_wdns_rr_to_ubuf` — wdns/rr_to_ubuf.c:17-58.  Compare `rrToUbuf`.  Enlarging the buffer for the fields in front of the rdata may be refused in any
of lines 33-51; here at one moment. -/
def oRrToUbuf (F : Alloc) (u : List UInt8) (rr : RR) (sec : Nat) (h : Heap) : Outcome (List UInt8 × Heap) := do
  let (_, name) ← domainToStr preslenName rr.name.data rr.name.len
  let u := if sec = 0 then u ++ [59] else u
  let u := uAddCstr u name
  let u ← (if sec ≠ 0 then do
    let t ← decStr rr.rrttl 11
    ok (u ++ [32] ++ t)
    else ok u)
  let u := uAddCstr u (classTok rr.rrclass)
  let u := uAddCstr u (rrtypeTok rr.rrtype)
  let (u, h) ← (if sec ≠ 0 then
    match rr.rdata with
    | none => ub
    | some rd => oRdataToUbuf F (u ++ [32]) rd.data rd.len rr.rrtype rr.rrclass h
    else ok (u, h))
  if F.grows h.next then abort else ok (u ++ [10], h)

/-- The loop of `_wdns_rrset_to_ubuf` — wdns/rrset_to_ubuf.c:27-36.  Compare `rrsetLoop`. -/
def oRrsetLoop (F : Alloc) (s : RRset) (sec : Nat) : List (Option CRdata) → List UInt8 → Heap → Outcome (List UInt8 × Heap)
  | [], u, h => ok (u, h)
  | r :: rs, u, h => do
    let (u, h) ← oRrToUbuf F u ⟨s.rrttl, s.rrtype, s.rrclass, s.name, r⟩ sec h
    oRrsetLoop F s sec rs u h

/-- `_wdns_rrset_to_ubuf` — wdns/rrset_to_ubuf.c:17-37.  Compare `rrsetToUbuf`. -/
def oRrsetToUbuf (F : Alloc) (u : List UInt8) (s : RRset) (sec : Nat) (h : Heap) : Outcome (List UInt8 × Heap) :=
  if sec = 0 then
    match s.rdatas with
    | [] => ub
    | r :: _ => oRrsetLoop F s sec [some r] u h
  else oRrsetLoop F s sec (s.rdatas.map some) u h

/-- `_wdns_rrset_array_to_ubuf` — wdns/rrset_array_to_ubuf.c:17-22.  Compare `rrsToUbuf`. -/
def oRrsToUbuf (F : Alloc) (sec : Nat) : List RR → List UInt8 → Heap → Outcome (List UInt8 × Heap)
  | [], u, h => ok (u, h)
  | rr :: rrs, u, h => do
    let (u, h) ← oRrToUbuf F u rr sec h
    oRrsToUbuf F sec rrs u h

/-- The common frame of the functions that return a text: a new buffer, what `render` writes into it, the terminating NUL, and the storage handed
to the caller.  See `hToStr`, `oRdataToStr`. -/
def oToStr (F : Alloc) (render : Heap → Outcome (List UInt8 × Heap)) (h : Heap) : Outcome ((List UInt8 × Nat) × Heap) := do
  let (u, h) ← oUbufNew F h
  let (t, h) ← render h
  if F.grows h.next then abort else do
  let (b, u, h) ← oUbufDetach F u h
  let h ← hUbufDestroy u h
  ok ((cstrOf t, b), h)

/-- `wdns_rr_to_str` — wdns/rr_to_str.c:17-30.  Compare `rrToStr`. -/
def oRrToStr (F : Alloc) (rr : RR) (sec : Nat) (h : Heap) : Outcome ((List UInt8 × Nat) × Heap) :=
  oToStr F (oRrToUbuf F [] rr sec) h

/-- `wdns_rrset_to_str` — wdns/rrset_to_str.c:17-30.  Compare `rrsetToStr`. -/
def oRrsetToStr (F : Alloc) (s : RRset) (sec : Nat) (h : Heap) : Outcome ((List UInt8 × Nat) × Heap) :=
  oToStr F (oRrsetToUbuf F [] s sec) h

/-- `wdns_rrset_array_to_str` — wdns/rrset_array_to_str.c:17-30.  Compare `rrsetArrayToStr`. -/
def oRrsetArrayToStr (F : Alloc) (a : RRsetArray) (sec : Nat) (h : Heap) : Outcome ((List UInt8 × Nat) × Heap) :=
  oToStr F (oRrsToUbuf F sec a.rrs []) h

/-- The OPT pseudosection — wdns/message_to_str.c:61-86, with its second buffer.  Compare `msgEdns`. -/
def oMsgEdns (F : Alloc) (e : Edns) (h : Heap) : Outcome (List UInt8 × Heap) :=
  if e.present then do
    let head := ascii "\n;; OPT PSEUDOSECTION:" ++ ascii "\n; EDNS: version: " ++ fmtU e.version ++ ascii ", flags:" ++
      (if e.flags &&& 0x8000 ≠ 0 then ascii " do" else []) ++ ascii "; udp: " ++ fmtU e.size
    match e.options with
    | none => ok (head, h)
    | some o => do
      let (v, h) ← oUbufNew F h                                           -- line 74
      let (t, h) ← oRdataToUbuf F [] o.data o.len 41 0 h
      if F.grows h.next then abort else do                                -- line 77
      h.use (some v.vec)                                                  -- lines 78-83
      let h ← hUbufDestroy v h                                            -- line 84
      ok (head ++ (strtok (· = 10) (cstrOf t) []).flatMap fun opt => ascii "\n; " ++ opt, h)
  else ok ([], h)

/-- What `wdns_message_to_str` writes into its buffer — wdns/message_to_str.c:28-97.  Compare `messageToStr`. -/
def oMessageToUbuf (F : Alloc) (m : Message) (h : Heap) : Outcome (List UInt8 × Heap) := do
  let sec (i : Nat) : List RR := (m.sections[i]?).elim [] fun a => a.rrs
  let (e, h) ← oMsgEdns F m.edns h
  let u := msgHeader m ++ e
  let (u, h) ← oRrsToUbuf F 0 (sec 0) (u ++ ascii "\n;; QUESTION SECTION:\n") h
  let (u, h) ← oRrsToUbuf F 1 (sec 1) (u ++ ascii "\n;; ANSWER SECTION:\n") h
  let (u, h) ← oRrsToUbuf F 2 (sec 2) (u ++ ascii "\n;; AUTHORITY SECTION:\n") h
  oRrsToUbuf F 3 (sec 3) (u ++ ascii "\n;; ADDITIONAL SECTION:\n") h

/-- `wdns_message_to_str` — wdns/message_to_str.c:18-102.  Compare `messageToStr`, `hMessageToStr`. -/
def oMessageToStr (F : Alloc) (m : Message) (h : Heap) : Outcome ((List UInt8 × Nat) × Heap) := oToStr F (oMessageToUbuf F m) h

/-- The loop — wdns/file_load_names.c:34-43.  Compare `loadLoop`, `hLoadLoop`. -/
def oLoadLoop (F : Alloc) : Nat → List UInt8 → Heap → Outcome ((List (CName × Nat) × Res) × Heap)
  | 0, _, _ => hang
  | fuel + 1, f, h =>
    match fgets 1280 f with
    | none => ok (([], .success), h)
    | some (line, rest) =>
      let c := line.getD 0 0
      if c = 10 ∨ c = 32 ∨ c = 35 then oLoadLoop F fuel rest h
      else
        let s := cstrOf line
        if s = [] then ub
        else do
          match ← oStrToNameGen F (if s.getLast? = some 10 then s.dropLast else s) true h with
          | (.error e, h) => ok (([], e), h)
          | (.ok n, h) => do
            let (r, h) ← oLoadLoop F fuel rest h
            ok ((n :: r.1, r.2), h)

/-- `wdns_file_load_names` — wdns/file_load_names.c:17-47.  Opening an existing file fails if the memory for the stream is refused (lines 27-29).  (The
stream's own buffer is not counted: the C library does without it if need be.)  Compare `fileLoadNames`, `hFileLoadNames`. -/
def oFileLoadNames (F : Alloc) (file : Option (List UInt8)) (h : Heap) : Outcome ((List (CName × Nat) × Res) × Heap) :=
  match file with
  | none => ok (([], .failure), h)
  | some f => do
    let (fp, h) := h.cMalloc F                                          -- line 27: fopen
    match fp with
    | none => ok (([], .failure), h)
    | some fp => do
      let (r, h) ← oLoadLoop F (f.length + 1) f h
      let h ← h.free (some fp)                                          -- line 45: fclose
      ok (r, h)

end Wdns
