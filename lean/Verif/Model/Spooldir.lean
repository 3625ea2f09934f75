import Verif.Model.Ubuf

/-!
# Model: the spool directory

libmy/spooldir.c.  Producers put files into `PATH/incoming`; `spooldir_next` moves one of them to `PATH/active` and returns its new path.

Threads run `spooldir_next` concurrently, one system call (or lock operation) at a time; in between other processes may create and remove files.  The file
system maps paths to files; a file has an identity, so that one can say that it was moved and not copied.  Simplifications: `PATH` and its two directories are
neither moved nor removed while the object exists, no two paths are links to the same file, and messages on stderr are left out.
-/

namespace Wdns
open Outcome

/-- A file: its identity (for the specification only) and whether `stat` says it is regular. -/
structure SdNode where
  id : Nat
  reg : Bool
  deriving DecidableEq, Repr

/-- The files, by path. -/
abbrev SdFs := List UInt8 → Option SdNode

/-- (File system.)  A path gets another file, or none. -/
def SdFs.put (fs : SdFs) (p : List UInt8) (x : Option SdNode) : SdFs := fun q => if q = p then x else fs q

/-- `struct spooldir` — libmy/spooldir.c:34-41, without the lock; `dir` (and `dir_fd`) is the path at which the directory was opened. -/
structure Spool where
  dir : List UInt8
  fname : Ubuf
  active : Ubuf
  incoming : Ubuf
  deriving DecidableEq, Repr

/-- (C library.)  A C string in a block: up to the first zero octet. -/
def cellsStr : List (Option UInt8) → Outcome (List UInt8)
  | [] => ub
  | none :: _ => ub
  | some c :: v => if c = 0 then ok [] else do let s ← cellsStr v; ok (c :: s)

/-- `ubuf_cstr` — libmy/ubuf.h:67-72, as the argument of a system call (the octet that `ubuf_cterm` appends is never needed here). -/
def sdCstr (u : Ubuf) : Outcome (List UInt8) := do
  let u ← u.cterm
  cellsStr u.v

/-- The results of the system calls of `spooldir_init`. -/
structure SdWorld where
  realpath : Option (List UInt8)
  isdir : List UInt8 → Bool
  mkdir : List UInt8 → Bool
  opendir : List UInt8 → Bool

/-- `path_mkdir` — libmy/spooldir.c:69-84, with `path_isdir` :54-67. -/
def sdMkdir (w : SdWorld) (path : List UInt8) : Bool := w.isdir path || w.mkdir path

/-- `spooldir_init` — libmy/spooldir.c:86-123. -/
def sdInit (w : SdWorld) : Outcome Spool :=
  match w.realpath with
  | none => abort
  | some dname =>
    if w.isdir dname = false then abort
    else do
      let a ← (Ubuf.init 128).addCstr dname
      let a ← a.addCstr (ascii "/active")
      let a ← a.cterm
      let pa ← cellsStr a.v
      if sdMkdir w pa = false then abort
      else do
        let i ← (Ubuf.init 128).addCstr dname
        let i ← i.addCstr (ascii "/incoming")
        let i ← i.cterm
        let pi ← cellsStr i.v
        if sdMkdir w pi = false then abort
        else if w.opendir pi = false then abort
        else ok ⟨pi, Ubuf.init 128, a, i⟩

/-- `src_fname` — libmy/spooldir.c:177-180. -/
def sdSrc (s : Spool) (name : List UInt8) : Outcome Ubuf := do
  let u ← (Ubuf.init 128).extend s.incoming
  let u ← u.addFmt (47 :: name)
  u.cterm

/-- `s->fname` — libmy/spooldir.c:182-185. -/
def sdDst (s : Spool) (name : List UInt8) : Outcome Ubuf := do
  let u ← (s.fname.clip 0).extend s.active
  let u ← u.addFmt (47 :: name)
  u.cterm

/-- Where a thread is in `spooldir_next` — libmy/spooldir.c:139-205; `src` is its local `src_fname`, `ret` the block it is about to return. -/
inductive SdPc where
  /-- not in `spooldir_next` -/
  | idle
  /-- at `pthread_mutex_lock`, :149 -/
  | wait
  /-- at `readdir`, :152 -/
  | read
  /-- at `rewinddir`, :167 -/
  | rewind
  /-- at `fstatat`, :155 -/
  | stat
  /-- at `path_exists`, :187 -/
  | exist (src : Ubuf)
  /-- at `unlink`, :190 -/
  | unlink (src : Ubuf)
  /-- at `rename`, :193 -/
  | rename (src : Ubuf)
  /-- at `pthread_mutex_unlock`, :169 or :203 -/
  | unlock (ret : Option (List (Option UInt8)))
  /-- at `return` (after the second `usleep`, if nothing was found), :171 or :204 -/
  | done (ret : Option (List (Option UInt8)))
  deriving DecidableEq, Repr

/-- The shared state.  `dent` is the buffer in which `readdir` leaves the entry and into which `fname` points; `moved` and `outs` record, for the
specification only, the successful renames (thread, entry, file) and the results of the calls. -/
structure SdState where
  sp : Spool
  dent : List UInt8
  owner : Option Nat
  pc : Nat → SdPc
  fs : SdFs
  next : Nat
  moved : List (Nat × List UInt8 × Nat)
  outs : List (Nat × Option (List UInt8))

/-- (Threads.)  Thread `t` goes on at `c`. -/
def SdState.goto (st : SdState) (t : Nat) (c : SdPc) : SdState := { st with pc := fun i => if i = t then c else st.pc i }

/-- An event: a step of a thread, with the result of its system call (`good = false`: it fails for some reason that has nothing to do with the files of the
model), or a change of the file system by another process. -/
inductive SdEv where
  | call (t : Nat)
  | lock (t : Nat)
  | readdir (t : Nat) (entry : Option (List UInt8))
  | rewind (t : Nat)
  | fstatat (t : Nat) (good : Bool)
  | exist (t : Nat) (good : Bool)
  | unlink (t : Nat) (good : Bool)
  | rename (t : Nat) (good : Bool)
  | unlock (t : Nat)
  | ret (t : Nat)
  | create (path : List UInt8) (reg : Bool)
  | remove (path : List UInt8)
  deriving DecidableEq, Repr

/-- (C library.)  What `readdir` can find in a directory. -/
def sdEntry (n : List UInt8) : Bool := n != [] && !n.contains 0 && !n.contains 47

/-- One step; `none`: the event cannot happen now.  The statements of `spooldir_next` — libmy/spooldir.c:139-205 — between one system call and the next. -/
def sdStep (st : SdState) : SdEv → Option (Outcome SdState)
  | .call t => if st.pc t = .idle then some (ok (st.goto t .wait)) else none
  | .lock t => if st.pc t = .wait ∧ st.owner = none then some (ok { st.goto t .read with owner := some t }) else none
  | .readdir t e =>
    if st.pc t = .read then
      match e with
      | none => some (ok (st.goto t .rewind))
      | some n =>
        if sdEntry n then some (ok { st.goto t (if n.head? = some 46 then .read else .stat) with dent := n }) else none
    else none
  | .rewind t => if st.pc t = .rewind then some (ok (st.goto t (.unlock none))) else none
  | .fstatat t good =>
    if st.pc t = .stat then
      some (match good, st.fs (st.sp.dir ++ 47 :: st.dent) with
        | true, some nd =>
          if nd.reg then do
            let src ← sdSrc st.sp st.dent
            let dst ← sdDst st.sp st.dent
            ok { st.goto t (.exist src) with sp := { st.sp with fname := dst } }
          else ok (st.goto t .read)
        | _, _ => ok (st.goto t .read))
    else none
  | .exist t good =>
    match st.pc t with
    | .exist src => some do
      let d ← sdCstr st.sp.fname
      ok (st.goto t (if good && (st.fs d).isSome then .unlink src else .rename src))
    | _ => none
  | .unlink t good =>
    match st.pc t with
    | .unlink src => some do
      let d ← sdCstr st.sp.fname
      ok { st.goto t (.rename src) with fs := if good then st.fs.put d none else st.fs }
    | _ => none
  | .rename t good =>
    match st.pc t with
    | .rename src => some do
      let s ← sdCstr src
      let d ← sdCstr st.sp.fname
      match good, st.fs s with
      | true, some nd =>
        ok { st.goto t (.unlock (some st.sp.fname.detach.1.1)) with
          sp := { st.sp with fname := st.sp.fname.detach.2 }
          fs := (st.fs.put s none).put d (some nd)
          moved := st.moved ++ [(t, st.dent, nd.id)] }
      | _, _ => ok (st.goto t (.unlock none))
    | _ => none
  | .unlock t =>
    match st.pc t with
    | .unlock r => some (if st.owner = some t then ok { st.goto t (.done r) with owner := none } else ub)
    | _ => none
  | .ret t =>
    match st.pc t with
    | .done none => some (ok { st.goto t .idle with outs := st.outs ++ [(t, none)] })
    | .done (some b) => some do
      let p ← cellsStr b
      ok { st.goto t .idle with outs := st.outs ++ [(t, some p)] }
    | _ => none
  | .create p reg => some (ok { st with fs := st.fs.put p (some ⟨st.next, reg⟩), next := st.next + 1 })
  | .remove p => some (ok { st with fs := st.fs.put p none })

/-- (Driver.)  A fresh spool directory; nobody has called `spooldir_next`. -/
def sdStart (sp : Spool) (fs : SdFs) (next : Nat) : SdState := ⟨sp, [], none, fun _ => .idle, fs, next, [], []⟩

/-- (Driver.)  The states reached after some events. -/
inductive SdReach (st : SdState) : SdState → Prop
  | start : SdReach st st
  | step {st' st'' : SdState} {ev : SdEv} : SdReach st st' → sdStep st' ev = some (ok st'') → SdReach st st''

/-- (Driver.)  Run some events. -/
def sdRun : List SdEv → SdState → Option (Outcome SdState)
  | [], st => some (ok st)
  | ev :: evs, st =>
    match sdStep st ev with
    | some (ok st') => sdRun evs st'
    | r => r

end Wdns
