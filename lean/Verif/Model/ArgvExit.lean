import Verif.Model.ArgvTell

/-!
# libmy/argv.c with `argv_interactive` set

This is the default.  The processing of `Model/ArgvTell.lean` once more: the program is ended by `exit` where a line asks for help, where
a file of arguments cannot be opened, and where the array or the line is refused.  `argv_error_stream` is not NULL.
-/

namespace Wdns
open Outcome

/-- What the program has set — libmy/argv.c:43-113: the names for messages, `argv_error_type`, `argv_usage_type`, `argv_error_code`,
`argv_help_string`, `argv_version_string`; the texts of the array; how `printf` renders a floating-point number, and what the local
buffer of `display_variables` holds. -/
structure Manners where
  voice : Voice
  errType : Nat
  usageType : Nat
  errCode : Nat
  help : Option (List UInt8)
  version : Option (List UInt8)
  texts : List (Option (List UInt8) × Option (List UInt8))
  real : Bool → Nat → List UInt8
  buf : List UInt8

/-- A function returns, or it ends the program; and what it has written. -/
inductive Ends (α : Type) where
  | back (a : α) (t : List UInt8)
  | exit (code : Nat) (t : List UInt8)
deriving DecidableEq, Repr

/-- The same after something else was written. -/
def Ends.after {α : Type} (t : List UInt8) : Ends α → Ends α
  | .back a u => .back a (t ++ u)
  | .exit c u => .exit c (t ++ u)

/-- One function after the other. -/
def goOn {α β : Type} (x : Outcome (Ends α)) (f : α → Outcome (Ends β)) : Outcome (Ends β) :=
  x >>= fun e => match e with
    | .back a t => f a >>= fun r => ok (r.after t)
    | .exit c t => ok (.exit c t)

/-- A function that always returns. -/
def returning {α : Type} (x : Outcome (α × List UInt8)) : Outcome (Ends α) := x >>= fun r => ok (.back r.1 r.2)

/-- A long option — libmy/argv.c:2471-2643; see `doLong`, `tLong`. -/
def iLong (m : Manners) (cfg : ACfg) (fileK : List UInt8 → AState → Outcome (Ends AState)) (a : List UInt8) (s : AState) : Outcome (Ends AState) :=
  let close := closeText cfg a
  let w := punch cfg a
  let rest := w.drop 2
  if rest = [] then ok (.back { s with okay := false } (usageProblem m.voice (ascii "empty long-option prefix '" ++ w ++ ascii "'\n")))
  else longLoop rest s.grid 0 none >>= fun r =>
    match r with
    | .two =>
      ok (.back { s with okay := false } (match twoNames rest s.grid none with
        | some (l, l') => usageProblem m.voice (ascii "'" ++ w ++ ascii "' might be '" ++ l ++ ascii "' or '" ++ l' ++ ascii "'\n")
        | none => []))
    | .found i => returning (tArg m.voice cfg i close s)
    | .no =>
      if rest.isPrefixOf (ascii "argv-file") then
        match close with
        | some path => fileK path s
        | none => if s.queue.length < s.cap then ok (.back { s with queue := s.queue ++ [none] } []) else ub
      else match answerWord m.real m.voice.prog m.usageType m.help m.version (withTexts s.grid m.texts) m.buf rest with
        | some x => x >>= fun t => ok (.exit 0 t)
        | none => ok (.back { s with okay := false } (usageProblem m.voice (ascii "unknown long option '" ++ w ++ ascii "'.\n")))

/-- The loop through the characters of a short option — libmy/argv.c:2680-2745; see `clusterLoop`, `tCluster`.  `?` asks for the usage
message — libmy/argv.c:2693-2699. -/
def iCluster (m : Manners) (cfg : ACfg) (full : List UInt8) (close : Option (List UInt8)) :
    List UInt8 → Bool → AState → Outcome (Ends AState)
  | [], _, s => ok (.back s [])
  | c :: cs, first, s =>
    scanGrid (fun e => e.short = c) s.grid 0 >>= fun k =>
    match k with
    | some i => goOn (returning (tArg m.voice cfg i close s)) fun s => iCluster m cfg full close cs false s
    | none =>
      if c = 63 then doUsage m.voice.prog (withTexts s.grid m.texts) m.usageType >>= fun t => ok (.exit 0 t)
      else if first ∧ isNumber full ∧ s.queue.length > s.tail then
        match s.queue[s.tail]? with
        | some (some i) =>
          entryAt s.grid i >>= fun e =>
          if e.ty = 6 ∨ e.ty = 8 ∨ e.ty = 10 ∨ e.ty = 12 ∨ e.ty = 13 then
            stringToValue cfg (some full) e >>= fun r =>
              ok (.back { s with grid := s.grid.set i r.2, tail := s.tail + 1 } (tellType m.voice e.ty))
          else goOn (ok (.back { s with okay := false } (unknownShort m.voice c))) fun s => iCluster m cfg full close cs false s
        | _ => ub
      else goOn (ok (.back { s with okay := false } (unknownShort m.voice c))) fun s => iCluster m cfg full close cs false s

/-- A short option — libmy/argv.c:2645-2747; see `doShort`, `tShort`. -/
def iShort (m : Manners) (cfg : ACfg) (a : List UInt8) (s : AState) : Outcome (Ends AState) :=
  let full := punch cfg a
  if full.drop 1 = [] then
    ok (.back { s with okay := false } (usageProblem m.voice (ascii "empty short-option prefix '" ++ full ++ ascii "'\n")))
  else iCluster m cfg full (closeText cfg a) (full.drop 1) true s

/-- An argument that is not an option — libmy/argv.c:2749-2812; see `doValue`, `tValue`: only a file of arguments can end the program. -/
def iValue (m : Manners) (cfg : ACfg) (fileK : List UInt8 → AState → Outcome (Ends AState)) (a : List UInt8) (s : AState) :
    Outcome (Ends (AState × Nat)) :=
  entryAt s.grid 0 >>= fun e0 =>
  if e0.short ≠ argvLast ∧ s.queue.length > s.tail ∧ s.queue[s.tail]? = some none then
    goOn (fileK a { s with tail := s.tail + 1 }) fun s => ok (.back (s, 0) [])
  else returning (tValue m.voice cfg (fun _ _ => ub) a s >>= fun r => ok ((r.1, r.2.2), r.2.1))

/-- `do_list` — libmy/argv.c:2435-2818; see `doList`, `tList`. -/
def iList (m : Manners) (cfg : ACfg) (fileK : List UInt8 → AState → Outcome (Ends AState)) :
    List (List UInt8) → Bool → Nat → AState → Outcome (Ends (AState × List (List UInt8)))
  | [], _, n, s => ok (.back (s, []) (tellUnwanted m.voice n))
  | a :: as, last, n, s =>
    if a = ascii "--" ∧ last ∧ cfg.lastToggle then
      goOn (iList m cfg fileK as false n s) fun r => ok (.back (r.1, a :: r.2) [])
    else if a = ascii "--" ∧ !last then
      goOn (iList m cfg fileK as true n s) fun r => ok (.back (r.1, a :: r.2) [])
    else if !last ∧ a.take 2 = ascii "--" then
      goOn (iLong m cfg fileK a s) fun s => goOn (iList m cfg fileK as last n s) fun r => ok (.back (r.1, punch cfg a :: r.2) [])
    else if !last ∧ a.take 1 = ascii "-" ∧ a.length ≠ 1 then
      goOn (iShort m cfg a s) fun s => goOn (iList m cfg fileK as last n s) fun r => ok (.back (r.1, punch cfg a :: r.2) [])
    else
      goOn (iValue m cfg fileK a s) fun q => goOn (iList m cfg fileK as last (n + q.2) q.1) fun r => ok (.back (r.1, a :: r.2) [])

/-- `file_args` — libmy/argv.c:2164-2276; see `fileArgs`, `tFile`: a file that cannot be opened ends the program —
libmy/argv.c:2180-2191. -/
def iFile (m : Manners) (cfg : ACfg) : Nat → List UInt8 → AState → Outcome (Ends AState)
  | 0, _, _ => hang
  | n + 1, path, s =>
    if path = ascii "-" then
      goOn (iList m cfg (iFile m cfg n) (fileLines s.stdin.length s.stdin) false 0 { s with stdin := [] }) fun r => ok (.back r.1 [])
    else match cfg.files path with
      | none => ok (.exit m.errCode (tellFile m.voice path))
      | some text =>
        if s.fds = 0 then ok (.exit m.errCode (tellFile m.voice path))
        else
          goOn (iList m cfg (iFile m cfg n) (fileLines text.length text) false 0 { s with fds := s.fds - 1, opens := s.opens + 1 })
            fun r => ok (.back { r.1 with fds := r.1.fds + 1 } [])

/-- The processing after the preparation — libmy/argv.c:3192-3250; see `processLists`, `tProcessLists`: a line that is refused ends the
program after the usage message. -/
def iProcessLists (m : Manners) (cfg : ACfg) (fuel : Nat) (grid : List AEntry) (argv0 : List UInt8) (args env : List (List UInt8))
    (stdin : List UInt8) (fds : Nat) : Outcome (Ends AResult) :=
  let s0 : AState := ⟨grid, [], args.length + 1 + env.length, 0, true, stdin, fds, 0⟩
  goOn (iList m cfg (iFile m cfg fuel) (if cfg.processEnv && !cfg.envAfter then env else []) false 0 s0) fun r1 =>
  goOn (iList m cfg (iFile m cfg fuel) args false 0 r1.1) fun r2 =>
  goOn (iList m cfg (iFile m cfg fuel) (if cfg.processEnv && cfg.envAfter then env else []) false 0 r2.1) fun r3 =>
  checkMand r3.1.grid >>= fun mandOk =>
  checkXor r3.1.grid (r3.1.grid.length + 1) 0 >>= fun xorOk =>
  tellMand m.voice r3.1.grid >>= fun tm =>
  tellXor m.voice r3.1.grid >>= fun tx =>
  let told := tm ++ tellWaiting m.voice (r3.1.queue.length - r3.1.tail) ++ tx
  if r3.1.okay && mandOk && !(r3.1.queue.length > r3.1.tail) && xorOk then ok (.back ⟨true, r3.1.grid, argv0 :: r2.2, r3.1.opens⟩ told)
  else doUsage m.voice.prog (withTexts r3.1.grid m.texts) m.errType >>= fun u => ok (.exit m.errCode (told ++ u))

/-- `argv_process_no_env` — libmy/argv.c:3119-3258; see `argvProcess`, `tProcess`: an array that is refused ends the program —
libmy/argv.c:1055-1168. -/
def iProcess (m : Manners) (cfg : ACfg) (fuel : Nat) (grid : List AEntry) (argv : List (List UInt8)) (stdin : List UInt8) (fds : Nat) :
    Outcome (Ends AResult) :=
  match argv with
  | [] => ub
  | argv0 :: args =>
    preprocess grid >>= fun r =>
    match r with
    | none =>
      let n := grid.findIdx (fun e => e.short = argvLast)
      ok (.exit m.errCode (tellPre m.voice n (grid.take n) 0 none false false))
    | some grid => iProcessLists m cfg fuel grid argv0 args (envArgs cfg argv0) stdin fds

/-- `argv_error_stream` — libmy/argv.c:66, libmy/argv_loc.h:69: NULL, the address 1 that it has at first, or a stream. -/
inductive AStream where
  | null
  | initial
  | stream
deriving DecidableEq, Repr

/-- `argv_startup` — libmy/argv.c:165-176; `enabled` is `enabled_b`. -/
def argvStartup (enabled : Bool) (st : AStream) : AStream := if enabled then st else if st = .initial then .stream else st

/-- Text is written where the stream is not NULL; the address 1 is not that of a stream. -/
def writeTo (st : AStream) (t : List UInt8) : Outcome (List UInt8) :=
  if t = [] then ok [] else match st with
    | .null => ok []
    | .initial => ub
    | .stream => ok t

/-- What a function does, with its text written to the stream. -/
def Ends.to {α : Type} (st : AStream) : Ends α → Outcome (Ends α)
  | .back a t => writeTo st t >>= fun t => ok (.back a t)
  | .exit c t => writeTo st t >>= fun t => ok (.exit c t)

/-- `argv_process_no_env` with the stream as it is — libmy/argv.c:3119-3258 (there is no call of `argv_startup` in it). -/
def processNoEnvOn (st : AStream) (m : Manners) (cfg : ACfg) (fuel : Nat) (grid : List AEntry) (argv : List (List UInt8)) (stdin : List UInt8) (fds : Nat) :
    Outcome (Ends AResult) := iProcess m cfg fuel grid argv stdin fds >>= fun e => e.to st

/-- `argv_process` — libmy/argv.c:3274-3293: `argv_startup` first.  (The settings that `process_env` reads are those in `m` and `cfg`: see
`Model/ArgvGlobal.lean`.) -/
def processOn (enabled : Bool) (st : AStream) (m : Manners) (cfg : ACfg) (fuel : Nat) (grid : List AEntry) (argv : List (List UInt8)) (stdin : List UInt8)
    (fds : Nat) : Outcome (Ends AResult) := processNoEnvOn (argvStartup enabled st) m cfg fuel grid argv stdin fds

end Wdns
