import Verif.Basic

/-!
# Model: libmy/my_fileset.c

The file is part of the repository but not compiled into the library.  The file system is an input: each reload is told what `stat` says about the
set file, which lines `getline` returns if `fopen` succeeds, and for each line whether the file it names exists at that moment.  The callbacks
`load` and `unload` are supposed to be given (not NULL); their calls are recorded in `calls`, a ghost variable, and the pointer that a call of `load`
returns is named by the position of the call in this record.  Allocation of the entries is not modelled.
-/

namespace Wdns
open Outcome

/-- The calls that a file set makes. -/
inductive FsCall where
  | load (fname : List UInt8) (ptr : Nat)
  | unload (fname : List UInt8) (ptr : Nat)
deriving DecidableEq

/-- `struct fileset_entry` — libmy/my_fileset.c:31-35. -/
structure FsEntry where
  keep : Bool
  fname : List UInt8
  ptr : Nat
deriving DecidableEq

/-- `struct my_fileset` — libmy/my_fileset.c:39-48, and the record of the calls. -/
structure Fileset where
  lastIno : Nat
  lastMtime : Nat
  setdir : List UInt8
  entries : List FsEntry
  calls : List FsCall
deriving DecidableEq

/-- What a reload meets: `stat` of the set file (`none`: it fails), and what can be read from it (`none`: `fopen` fails): the lines, each with the
answer of `stat` for the file it names. -/
structure FsWorld where
  stat : Option (Nat × Nat)
  lines : Option (List (List UInt8 × Bool))

/-- `strcmp`, on strings without their terminating NUL. -/
def cStrcmp : List UInt8 → List UInt8 → Int
  | [], [] => 0
  | [], b :: _ => 0 - b.toNat
  | a :: _, [] => a.toNat
  | a :: as, b :: bs => if a = b then cStrcmp as bs else (a.toNat : Int) - b.toNat

/-- `qsort` and `bsearch` of the C library, on entries compared by `cmp_fileset_entry` (libmy/my_fileset.c:82-94). -/
structure FsLibc where
  qsort : List FsEntry → List FsEntry
  bsearch : List FsEntry → List UInt8 → Option Nat

/-- What C requires of them (ISO C 7.22.5): `qsort` permutes the array so that no element compares greater than a later one; `bsearch` on a sorted array
returns an element that compares equal to the key, if there is one. -/
structure FsLibc.Ok (lc : FsLibc) : Prop where
  perm : ∀ es, (lc.qsort es).Perm es
  sorted : ∀ es, (lc.qsort es).Pairwise fun a b => cStrcmp a.fname b.fname ≤ 0
  found : ∀ es key i, es.Pairwise (fun a b => cStrcmp a.fname b.fname ≤ 0) → lc.bsearch es key = some i →
    ∃ e, es[i]? = some e ∧ cStrcmp key e.fname = 0
  absent : ∀ es key, es.Pairwise (fun a b => cStrcmp a.fname b.fname ≤ 0) → lc.bsearch es key = none → ∀ e ∈ es, cStrcmp key e.fname ≠ 0

/-- `my_fileset_init` — libmy/my_fileset.c:110-128, `setdir` being `dirname(setfile)`. -/
def fsInit (setdir : List UInt8) : Fileset := ⟨0, 0, setdir, [], []⟩

/-- The name of the file on a line — libmy/my_fileset.c:177-182: the directory of the set file, a slash and the line up to its first NUL, without one
newline at its end. -/
def fsName (setdir line : List UInt8) : List UInt8 :=
  let u := setdir ++ [47] ++ line.takeWhile (· ≠ 0)
  if u.getLast? = some 10 then u.dropLast else u

/-- One line — libmy/my_fileset.c:177-198: the old entries, the new ones and the calls. -/
def fsLine (lc : FsLibc) (setdir : List UInt8) (line : List UInt8 × Bool) (st : List FsEntry × List FsEntry × List FsCall) :
    Outcome (List FsEntry × List FsEntry × List FsCall) :=
  let (old, new, calls) := st
  let fname := fsName setdir line.1
  if line.2 then                                                         -- path_exists(fname)
    match lc.bsearch old fname with
    | none => ok (old, new ++ [⟨false, fname, calls.length⟩], calls ++ [.load fname calls.length])
    | some i =>
      match old[i]? with
      | some e => ok (old.set i { e with keep := true }, new ++ [⟨false, fname, e.ptr⟩], calls)
      | none => ub
  else ok st

/-- The loop over the lines — libmy/my_fileset.c:176-199. -/
def fsLines (lc : FsLibc) (setdir : List UInt8) : List (List UInt8 × Bool) → List FsEntry × List FsEntry × List FsCall →
    Outcome (List FsEntry × List FsEntry × List FsCall)
  | [], st => ok st
  | l :: ls, st => do
    let st ← fsLine lc setdir l st
    fsLines lc setdir ls st

/-- The loop over the old entries — libmy/my_fileset.c:208-215. -/
def fsDrop : List FsEntry → List FsCall → List FsCall
  | [], calls => calls
  | e :: es, calls => fsDrop es (if e.keep = false then calls ++ [.unload e.fname e.ptr] else calls)

/-- `my_fileset_reload` — libmy/my_fileset.c:155-219, with `setfile_updated` (62-80). -/
def fsReload (lc : FsLibc) (w : FsWorld) (fs : Fileset) : Outcome Fileset :=
  match w.stat with
  | none => ok fs
  | some (ino, mtime) =>
    if fs.lastIno ≠ ino ∨ fs.lastMtime ≠ mtime then
      let fs := { fs with lastIno := ino, lastMtime := mtime }
      match w.lines with
      | none => ok fs
      | some ls => do
        let (old, new, calls) ← fsLines lc fs.setdir ls (fs.entries, [], fs.calls)
        ok { fs with entries := lc.qsort new, calls := fsDrop old calls }
    else ok fs

/-- `my_fileset_destroy` — libmy/my_fileset.c:130-147: the calls made in the life of the file set. -/
def fsDestroy (fs : Fileset) : List FsCall := fs.entries.foldl (fun calls e => calls ++ [.unload e.fname e.ptr]) fs.calls

/-- `my_fileset_get` — libmy/my_fileset.c:221-234. -/
def fsGet (fs : Fileset) (i : Nat) : Option (List UInt8 × Nat) :=
  if i < fs.entries.length then (fs.entries[i]?).map fun e => (e.fname, e.ptr) else none

/-- (Driver, not C code.)  A history of reloads. -/
def fsRun (lc : FsLibc) : List FsWorld → Fileset → Outcome Fileset
  | [], fs => ok fs
  | w :: ws, fs => do
    let fs ← fsReload lc w fs
    fsRun lc ws fs

end Wdns
