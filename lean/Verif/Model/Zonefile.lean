import Verif.Model.Heap
import Verif.Model.Ubuf

/-!
# Model: the zone file reader

libmy/zonefile.c, with every block it owns.  The parser of libldns is not part of this code base; it is modelled by the sequence of items that it finds in the
file and by what its interface says about blocks: `ldns_rr_new_frm_fp_l` returns a new record, keeps a copy of its owner in `prev`, replaces `origin` at an `$ORIGIN` line, and reports
`LDNS_STATUS_SYNTAX_EMPTY` when nothing is left.  Objects of libldns are one block each.
-/

namespace Wdns
open Outcome

/-- A resource record, as far as the reader looks at it. -/
structure ZRec where
  soa : Bool
  owner : List UInt8
  serial : Nat
  deriving DecidableEq, Repr

/-- What the parser of libldns finds, one call at a time: a record; an empty line, `$TTL` or `$ORIGIN`; or anything it rejects. -/
inductive ZItem where
  | rr (r : ZRec)
  | blank
  | ttl
  | origin
  | bad
  deriving DecidableEq, Repr

/-- `struct zonefile` — libmy/zonefile.c:13-24, and the block of the structure itself (`self`).  `rest` is what is left in the file; `domainName` the content of the
block `domain`. -/
structure ZFile where
  self : Nat
  fp : Nat
  eof : Bool
  isPipe : Bool
  valid : Bool
  domain : Ptr
  domainName : List UInt8
  origin : Ptr
  prev : Ptr
  soa : Option (ZRec × Nat)
  count : Nat
  rest : List ZItem
  deriving DecidableEq, Repr

/-- (libldns.)  The result of `ldns_rr_new_frm_fp_l`: a record and its block, one of the three codes that the reader ignores, or another. -/
inductive ZStatus where
  | record (r : ZRec) (b : Nat)
  | skip
  | bad
  deriving DecidableEq, Repr

/-- (libldns.)  `ldns_rr_new_frm_fp_l`. -/
def zNext (z : ZFile) (h : Heap) : Outcome (ZStatus × ZFile × Heap) :=
  match z.rest with
  | [] => ok (.skip, z, h)
  | .rr r :: rest => do
    let (b, h) := h.malloc
    let h ← h.free z.prev
    let (p, h) := h.malloc
    ok (.record r b, { z with rest := rest, prev := some p }, h)
  | .origin :: rest => do
    let h ← h.free z.origin
    let (o, h) := h.malloc
    ok (.skip, { z with rest := rest, origin := some o }, h)
  | .blank :: rest => ok (.skip, { z with rest := rest }, h)
  | .ttl :: rest => ok (.skip, { z with rest := rest }, h)
  | .bad :: rest => ok (.bad, { z with rest := rest }, h)

/-- `read_soa`, :32-46 the loop and :47-62 what follows it — libmy/zonefile.c:26-63.  `true`: `LDNS_STATUS_OK`. -/
def zReadSoa : Nat → ZFile → Heap → Outcome (Bool × ZFile × Heap)
  | 0, _, _ => hang
  | fuel + 1, z, h => do
    let (s, z, h) ← zNext z h
    match s with
    | .skip => zReadSoa fuel z h
    | .bad => ok (false, { z with valid := false }, h)
    | .record r b =>
      if r.soa = false then do
        let h ← h.free (some b)
        ok (false, { z with valid := false }, h)
      else
        let (d, h) := h.malloc
        let (o, h) := h.malloc
        ok (true, { z with count := 1, domain := some d, domainName := r.owner, origin := some o, soa := some (r, b) }, h)

/-- `zonefile_destroy` — libmy/zonefile.c:96-117, of an object with an open file. -/
def zDestroy (z : ZFile) (h : Heap) : Outcome Heap := do
  let h ← h.free (some z.fp)
  let h ← h.free z.origin
  let h ← h.free z.prev
  let h ← h.free z.domain
  let h ← h.free (z.soa.map (·.2))
  h.free (some z.self)

/-- Whether the name ends in `.gz` — libmy/zonefile.c:70-74. -/
def zIsGz (fname : List UInt8) : Bool :=
  fname.length ≥ 3 && fname.getD (fname.length - 3) 0 == 46 && fname.getD (fname.length - 2) 0 == 103 && fname.getD (fname.length - 1) 0 == 122

/-- The command for a compressed file — libmy/zonefile.c:76-79. -/
def zCommand (fname : List UInt8) : Outcome Ubuf := do
  let u ← (Ubuf.init 64).addCstr (ascii "zcat ")
  let u ← u.addCstr fname
  u.cterm

/-- `zonefile_init_fname` — libmy/zonefile.c:65-94.  `fopen` and `popen`: what reading the file or the output of the command gives, `none` if it cannot be
opened; `popen` is given the buffer with the command.  The buffer's own blocks are left out. -/
def zInit (fopen : List UInt8 → Option (List ZItem)) (popen : Ubuf → Option (List ZItem)) (fname : List UInt8) (h : Heap) :
    Outcome (Option ZFile × Heap) := do
  let (self, h) := h.malloc
  let gz := zIsGz fname
  let items ← if gz then do
      let u ← zCommand fname
      ok (popen u)
    else ok (fopen fname)
  match items with
  | none => ok (none, h)
  | some items => do
    let (fp, h) := h.malloc
    let z : ZFile := ⟨self, fp, false, gz, true, none, [], none, none, none, 0, items⟩
    let (r, z, h) ← zReadSoa (items.length + 1) z h
    if r then ok (some z, h)
    else do
      let h ← zDestroy z h
      ok (none, h)

/-- (For the caller.)  What `zonefile_read` gives: a record, with its block; `NULL` and `LDNS_STATUS_OK`; or an error, in which case `*out` is left alone. -/
inductive ZOut where
  | record (r : ZRec) (b : Nat)
  | null
  | error
  deriving DecidableEq, Repr

/-- The loop of `zonefile_read` — libmy/zonefile.c:158-188. -/
def zReadLoop : Nat → ZFile → Heap → Outcome (ZOut × ZFile × Heap)
  | 0, _, _ => hang
  | fuel + 1, z, h =>
    if z.rest = [] then ok (.null, { z with eof := true }, h)
    else do
      let (s, z, h) ← zNext z h
      match s with
      | .skip => zReadLoop fuel z h
      | .bad => ok (.error, z, h)
      | .record r b =>
        if r.soa then do
          let h ← h.free (some b)
          ok (.null, z, h)
        else ok (.record r b, { z with count := z.count + 1 }, h)

/-- `zonefile_read` — libmy/zonefile.c:139-188. -/
def zRead (z : ZFile) (h : Heap) : Outcome (ZOut × ZFile × Heap) :=
  if z.eof then ok (.null, z, h)
  else if z.valid = false then ok (.error, z, h)
  else
    match decide (z.count = 1), z.soa with
    | true, some (r, b) => ok (.record r b, { z with soa := none }, h)
    | _, _ => zReadLoop (z.rest.length + 1) z h

/-- `zonefile_get_serial` — libmy/zonefile.c:131-137; `ldns_rr_rdf` of `NULL` is `NULL`. -/
def zSerial (z : ZFile) : Outcome Nat :=
  match z.soa with
  | some (r, _) => ok r.serial
  | none => abort

/-- (Driver.)  Read `n` times. -/
def zReads : Nat → ZFile → Heap → Outcome (List ZOut × ZFile × Heap)
  | 0, z, h => ok ([], z, h)
  | n + 1, z, h => do
    let (o, z, h) ← zRead z h
    let (os, z, h) ← zReads n z h
    ok (o :: os, z, h)

end Wdns
