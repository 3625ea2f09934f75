import Verif.Model.ArgvUsage

/-!
# libmy/argv.c: what is written about a command line that is refused

The processing of `Model/Argv.lean` once more, with what goes to `argv_error_stream`, which is not NULL (`argv_interactive` is 0:
the program is not ended).  `%d` is the decimal numeral: counts are shorter than 2^31.
-/

namespace Wdns
open Outcome

/-- What the messages begin with: `argv_program`, and `__FILE__` for the one about types. -/
structure Voice where
  prog : List UInt8
  file : List UInt8
deriving DecidableEq, Repr

/-- `"%s: %s, "` with `argv_program` and `USAGE_ERROR_NAME` — libmy/argv_loc.h:84. -/
def usageProblem (v : Voice) (t : List UInt8) : List UInt8 := v.prog ++ ascii ": usage problem, " ++ t

/-- `"%s: %s, "` with `argv_program` and `INTERNAL_ERROR_NAME` — libmy/argv_loc.h:85. -/
def internalError (v : Voice) (t : List UInt8) : List UInt8 := v.prog ++ ascii ": internal argv error, " ++ t

/-- An option in a list, on its own line behind the width of `USAGE_LABEL` — libmy/argv.c:1912-1922, 2012-2019, 2067-2074. -/
def optionLine (e : AEntry) : List UInt8 :=
  spaces 7 ++ ascii "-" ++ [e.short] ++ (match e.long with | none => [] | some l => ascii " (--" ++ l ++ ascii ")") ++ [10]

/-- `preprocess_array` — libmy/argv.c:1042-1167: the message about the entry at which it ends with `ERROR`, nothing if it does not
(see `preLoop`). -/
def tellPre (v : Voice) (n : Nat) : List AEntry → Nat → Option AEntry → Bool → Bool → List UInt8
  | [], _, _, _, _ => []
  | e :: es, i, prev, mandArr, maybe =>
    if e.short = argvMand ∧ mandArr then internalError v (ascii "no ARGV_MAND's can follow a MAND or MAYBE array\n")
    else if e.short = argvMand ∧ maybe then internalError v (ascii "no ARGV_MAND's can follow a ARGV_MAYBE\n")
    else if e.short = argvMaybe ∧ mandArr then internalError v (ascii "no ARGV_MAYBE's can follow a MAND or MAYBE array\n")
    else if e.array ∧ !hasArg e.ty then internalError v (ascii "cannot have an array of boolean values\n")
    else if e.array ∧ e.ty = 17 then internalError v (ascii "cannot have an array of incremental values\n")
    else if e.var = none ∧ !isOr e then internalError v (ascii "NULL variable specified in arg array\n")
    else if isOr e ∧ (i = 0 ∨ i + 1 ≥ n) then internalError v (ascii "ARGV_[X]OR entries cannot be at start or end of array\n")
    else if isOr e ∧ (prev.map isOr).getD false then internalError v (ascii "two ARGV_[X]OR entries cannot be next to each other\n")
    else tellPre v n es (i + 1) (some e) (mandArr || (e.array && (e.short = argvMand || e.short = argvMaybe))) (maybe || e.short = argvMaybe)

/-- `string_to_value` — libmy/argv.c:1207-1221: the message about a type that there is not. -/
def tellType (v : Voice) (ty : Nat) : List UInt8 :=
  if ty = 0 ∨ ty > 22 then v.file ++ ascii ": illegal variable type " ++ fmtU ty ++ [10] else []

/-- `check_or`, the entries below — libmy/argv.c:1868-1878: `match_p`. -/
def orBelowAt (grid : List AEntry) : Nat → Outcome (Option Nat)
  | k + 2 =>
    entryAt grid (k + 1) >>= fun sep =>
    if !isOr sep then ok none
    else entryAt grid k >>= fun e => if e.used then ok (some k) else orBelowAt grid k
  | _ => ok none

/-- `check_or`, the entries above — libmy/argv.c:1881-1896: `match_p`. -/
def orAboveAt (grid : List AEntry) : Nat → Nat → Outcome (Option Nat)
  | 0, _ => hang
  | fuel + 1, j =>
    entryAt grid j >>= fun e =>
    if e.short = argvLast then ok none
    else entryAt grid (j - 1) >>= fun sep =>
      if sep.short = argvLast then ok none
      else if !isOr sep then ok none
      else if e.used then ok (some j)
      else orAboveAt grid fuel (j + 2)

/-- `check_or` — libmy/argv.c:1863-1932: the message for entry `i`. -/
def tellOr (v : Voice) (grid : List AEntry) (i : Nat) : Outcome (List UInt8) :=
  orBelowAt grid i >>= fun b =>
  (match b with | some j => ok (some j) | none => orAboveAt grid (grid.length + 1) (i + 2)) >>= fun m =>
  match m with
  | none => ok []
  | some j =>
    entryAt grid j >>= fun e =>
    entryAt grid i >>= fun w =>
    ok (usageProblem v (ascii "specify only one of the following:\n") ++ optionLine e ++ (if j = i then [] else optionLine w))

/-- The messages of `do_arg` — libmy/argv.c:2306-2362: an option given twice, alternatives, a type that there is not. -/
def tellArg (v : Voice) (cfg : ACfg) (i : Nat) (close : Option (List UInt8)) (s : AState) : Outcome (List UInt8) :=
  entryAt s.grid i >>= fun e =>
  tellOr v (s.grid.set i { e with used := true }) i >>= fun t =>
  ok ((if !cfg.multiAccept && e.used && !e.array && e.ty ≠ 17 then
        usageProblem v (ascii "you've already specified the '" ++ [e.short] ++ ascii "' argument\n") else []) ++ t ++
      (if close.isSome ∨ !hasArg e.ty then tellType v e.ty else []))

/-- `do_arg` with its messages — libmy/argv.c:2302-2362. -/
def tArg (v : Voice) (cfg : ACfg) (i : Nat) (close : Option (List UInt8)) (s : AState) : Outcome (AState × List UInt8) :=
  doArg cfg i close s >>= fun s' => tellArg v cfg i close s >>= fun t => ok (s', t)

/-- The second and the first long name that begin with `rest` — libmy/argv.c:2504-2527. -/
def twoNames (rest : List UInt8) : List AEntry → Option (List UInt8) → Option (List UInt8 × List UInt8)
  | [], _ => none
  | e :: es, m =>
    if e.short = argvLast then none
    else match e.long with
      | none => twoNames rest es m
      | some l =>
        if rest.isPrefixOf l then
          match m with
          | some l' => some (l, l')
          | none => twoNames rest es (some l)
        else twoNames rest es m

/-- A long option — libmy/argv.c:2471-2605; see `doLong`. -/
def tLong (v : Voice) (cfg : ACfg) (fileK : List UInt8 → AState → Outcome (AState × List UInt8)) (a : List UInt8) (s : AState) :
    Outcome (AState × List UInt8) :=
  let close := closeText cfg a
  let w := punch cfg a
  let rest := w.drop 2
  if rest = [] then ok ({ s with okay := false }, usageProblem v (ascii "empty long-option prefix '" ++ w ++ ascii "'\n"))
  else longLoop rest s.grid 0 none >>= fun r =>
    match r with
    | .two =>
      ok ({ s with okay := false }, match twoNames rest s.grid none with
        | some (l, l') => usageProblem v (ascii "'" ++ w ++ ascii "' might be '" ++ l ++ ascii "' or '" ++ l' ++ ascii "'\n")
        | none => [])
    | .found i => tArg v cfg i close s
    | .no =>
      if rest.isPrefixOf (ascii "argv-file") then
        match close with
        | some path => fileK path s
        | none => if s.queue.length < s.cap then ok ({ s with queue := s.queue ++ [none] }, []) else ub
      else if rest.isPrefixOf (ascii "usage") ∨ rest.isPrefixOf (ascii "help") ∨ rest.isPrefixOf (ascii "usage-short") ∨
          rest.isPrefixOf (ascii "usage-long") ∨ rest.isPrefixOf (ascii "usage-all") ∨ rest.isPrefixOf (ascii "version") ∨
          rest.isPrefixOf (ascii "argv-display") then ok (s, [])
      else ok ({ s with okay := false }, usageProblem v (ascii "unknown long option '" ++ w ++ ascii "'.\n"))

/-- The message about an unknown short option — libmy/argv.c:2733-2741. -/
def unknownShort (v : Voice) (c : UInt8) : List UInt8 := usageProblem v (ascii "unknown short option '-" ++ [c] ++ ascii "'.\n")

/-- The loop through the characters of a short option — libmy/argv.c:2642-2720; see `clusterLoop`. -/
def tCluster (v : Voice) (cfg : ACfg) (full : List UInt8) (close : Option (List UInt8)) :
    List UInt8 → Bool → AState → Outcome (AState × List UInt8)
  | [], _, s => ok (s, [])
  | c :: cs, first, s =>
    scanGrid (fun e => e.short = c) s.grid 0 >>= fun m =>
    match m with
    | some i => tArg v cfg i close s >>= fun r => tCluster v cfg full close cs false r.1 >>= fun q => ok (q.1, r.2 ++ q.2)
    | none =>
      if c = 63 then tCluster v cfg full close cs false s
      else if first ∧ isNumber full ∧ s.queue.length > s.tail then
        match s.queue[s.tail]? with
        | some (some i) =>
          entryAt s.grid i >>= fun e =>
          if e.ty = 6 ∨ e.ty = 8 ∨ e.ty = 10 ∨ e.ty = 12 ∨ e.ty = 13 then
            stringToValue cfg (some full) e >>= fun r => ok ({ s with grid := s.grid.set i r.2, tail := s.tail + 1 }, tellType v e.ty)
          else tCluster v cfg full close cs false { s with okay := false } >>= fun q => ok (q.1, unknownShort v c ++ q.2)
        | _ => ub
      else tCluster v cfg full close cs false { s with okay := false } >>= fun q => ok (q.1, unknownShort v c ++ q.2)

/-- A short option — libmy/argv.c:2607-2722; see `doShort`. -/
def tShort (v : Voice) (cfg : ACfg) (a : List UInt8) (s : AState) : Outcome (AState × List UInt8) :=
  let full := punch cfg a
  if full.drop 1 = [] then ok ({ s with okay := false }, usageProblem v (ascii "empty short-option prefix '" ++ full ++ ascii "'\n"))
  else tCluster v cfg full (closeText cfg a) (full.drop 1) true s

/-- An argument that is not an option — libmy/argv.c:2724-2800; see `doValue`.  The number says by how much `unwant_c` grows. -/
def tValue (v : Voice) (cfg : ACfg) (fileK : List UInt8 → AState → Outcome (AState × List UInt8)) (a : List UInt8) (s : AState) :
    Outcome (AState × List UInt8 × Nat) :=
  entryAt s.grid 0 >>= fun e0 =>
  if e0.short ≠ argvLast ∧ s.queue.length > s.tail then
    match s.queue[s.tail]? with
    | some none => fileK a { s with tail := s.tail + 1 } >>= fun r => ok (r.1, r.2, 0)
    | some (some i) =>
      entryAt s.grid i >>= fun e =>
      stringToValue cfg (some a) e >>= fun r =>
        ok ({ s with grid := s.grid.set i r.2, tail := s.tail + 1, okay := s.okay && r.1 }, tellType v e.ty, 0)
    | none => ub
  else
    scanGrid (fun e => e.short = argvMand && (!e.used || e.array)) s.grid 0 >>= fun m =>
    match m with
    | some i =>
      entryAt s.grid i >>= fun e =>
      stringToValue cfg (some a) e >>= fun r =>
        ok ({ s with grid := s.grid.set i { r.2 with used := true }, okay := s.okay && r.1 }, tellType v e.ty, 0)
    | none =>
      scanGrid (fun e => e.short = argvMaybe && (!e.used || e.array)) s.grid 0 >>= fun m =>
      match m with
      | some i =>
        entryAt s.grid i >>= fun e =>
        stringToValue cfg (some a) e >>= fun r =>
          ok ({ s with grid := s.grid.set i { r.2 with used := true }, okay := s.okay && r.1 }, tellType v e.ty, 0)
      | none => ok ({ s with okay := false }, [], 1)

/-- The plural — libmy/argv.c:2082, 2122, 2815. -/
def pluralS (n : Nat) : List UInt8 := if n = 1 then [] else ascii "s"

/-- The end of `do_list` — libmy/argv.c:2812-2817: the message about arguments nobody asked for. -/
def tellUnwanted (v : Voice) (n : Nat) : List UInt8 :=
  if n > 0 then usageProblem v (fmtU n ++ ascii " unwanted additional argument" ++ pluralS n ++ [10]) else []

/-- `do_list` — libmy/argv.c:2435-2818; see `doList`.  `n` is `unwant_c`. -/
def tList (v : Voice) (cfg : ACfg) (fileK : List UInt8 → AState → Outcome (AState × List UInt8)) :
    List (List UInt8) → Bool → Nat → AState → Outcome (AState × List (List UInt8) × List UInt8)
  | [], _, n, s => ok (s, [], tellUnwanted v n)
  | a :: as, last, n, s =>
    if a = ascii "--" ∧ last ∧ cfg.lastToggle then
      tList v cfg fileK as false n s >>= fun r => ok (r.1, a :: r.2.1, r.2.2)
    else if a = ascii "--" ∧ !last then
      tList v cfg fileK as true n s >>= fun r => ok (r.1, a :: r.2.1, r.2.2)
    else if !last ∧ a.take 2 = ascii "--" then
      tLong v cfg fileK a s >>= fun q => tList v cfg fileK as last n q.1 >>= fun r => ok (r.1, punch cfg a :: r.2.1, q.2 ++ r.2.2)
    else if !last ∧ a.take 1 = ascii "-" ∧ a.length ≠ 1 then
      tShort v cfg a s >>= fun q => tList v cfg fileK as last n q.1 >>= fun r => ok (r.1, punch cfg a :: r.2.1, q.2 ++ r.2.2)
    else
      tValue v cfg fileK a s >>= fun q => tList v cfg fileK as last (n + q.2.2) q.1 >>= fun r => ok (r.1, a :: r.2.1, q.2.1 ++ r.2.2)

/-- The message about a file that cannot be opened — libmy/argv.c:2180-2191. -/
def tellFile (v : Voice) (path : List UInt8) : List UInt8 :=
  v.prog ++ ascii ": could not load command-line arguments from: " ++ path ++ [10]

/-- `file_args` — libmy/argv.c:2164-2276; see `fileArgs`. -/
def tFile (v : Voice) (cfg : ACfg) : Nat → List UInt8 → AState → Outcome (AState × List UInt8)
  | 0, _, _ => hang
  | n + 1, path, s =>
    if path = ascii "-" then
      tList v cfg (tFile v cfg n) (fileLines s.stdin.length s.stdin) false 0 { s with stdin := [] } >>= fun r => ok (r.1, r.2.2)
    else match cfg.files path with
      | none => ok ({ s with okay := false }, tellFile v path)
      | some text =>
        if s.fds = 0 then ok ({ s with okay := false }, tellFile v path)
        else
          tList v cfg (tFile v cfg n) (fileLines text.length text) false 0
            { s with fds := s.fds - 1, opens := s.opens + 1 } >>= fun r => ok ({ r.1 with fds := r.1.fds + 1 }, r.2.2)

/-- The loop of `check_mand` — libmy/argv.c:2053-2077: what it writes about flags (`first` says whether `flag_c` is 0), and
`mand_c`. -/
def mandLoop (v : Voice) : List AEntry → Bool → Outcome (List UInt8 × Nat)
  | [], _ => ub
  | e :: es, first =>
    if e.short = argvLast then ok ([], 0)
    else if e.mand ∧ !e.used then
      mandLoop v es false >>= fun r =>
      ok ((if first then usageProblem v (ascii "these mandatory flags must be specified:\n") else []) ++ optionLine e ++ r.1,
        r.2 + if e.short = argvMand then 1 else 0)
    else mandLoop v es first >>= fun r => ok (r.1, r.2 + if e.short = argvMand ∧ !e.used then 1 else 0)

/-- The messages of `check_mand` — libmy/argv.c:2047-2096. -/
def tellMand (v : Voice) (grid : List AEntry) : Outcome (List UInt8) :=
  mandLoop v grid true >>= fun r =>
  ok (r.1 ++ if r.2 > 0 then usageProblem v (fmtU r.2 ++ ascii " more mandatory argument" ++ pluralS r.2 ++ ascii " must be specified\n") else [])

/-- The message of `check_opt` — libmy/argv.c:2112-2130, for `n` options that wait for a value. -/
def tellWaiting (v : Voice) (n : Nat) : List UInt8 :=
  if n > 0 then usageProblem v (fmtU n ++ ascii " more option-argument" ++ pluralS n ++ ascii " must be specified\n") else []

/-- `check_xor` — libmy/argv.c:1960-1996: `start_p`, the first `ARGV_XOR` of a group of which none was given. -/
def xorStart (grid : List AEntry) : Nat → Nat → Outcome (Option Nat)
  | 0, _ => hang
  | fuel + 1, k =>
    entryAt grid k >>= fun e =>
    if e.short = argvLast then ok none
    else if e.short ≠ argvXor then xorStart grid fuel (k + 1)
    else if k = 0 then ub
    else entryAt grid (k - 1) >>= fun below =>
      xorRun grid (grid.length + 1) k below.used >>= fun r =>
      if r.2 then xorStart grid fuel (r.1 + 1) else ok (some k)

/-- The members of a group — libmy/argv.c:2007-2024; `k` is `arg_p`. -/
def xorLines (grid : List AEntry) : Nat → Nat → Outcome (List UInt8)
  | 0, _ => hang
  | fuel + 1, k =>
    if k = 0 then ub
    else entryAt grid (k - 1) >>= fun e =>
    entryAt grid k >>= fun sep =>
    if sep.short ≠ argvXor then ok (optionLine e)
    else xorLines grid fuel (k + 2) >>= fun t => ok (optionLine e ++ t)

/-- The message of `check_xor` — libmy/argv.c:1954-2027. -/
def tellXor (v : Voice) (grid : List AEntry) : Outcome (List UInt8) :=
  xorStart grid (grid.length + 1) 0 >>= fun m =>
  match m with
  | none => ok []
  | some k => xorLines grid (grid.length + 1) k >>= fun t => ok (usageProblem v (ascii "must specify one of:\n") ++ t)

/-- The processing after the preparation — libmy/argv.c:3192-3243; see `processLists`: what it writes, but for the usage message at
the end. -/
def tProcessLists (v : Voice) (cfg : ACfg) (fuel : Nat) (grid : List AEntry) (argv0 : List UInt8) (args env : List (List UInt8))
    (stdin : List UInt8) (fds : Nat) : Outcome (AResult × List UInt8) :=
  let s0 : AState := ⟨grid, [], args.length + 1 + env.length, 0, true, stdin, fds, 0⟩
  tList v cfg (tFile v cfg fuel) (if cfg.processEnv && !cfg.envAfter then env else []) false 0 s0 >>= fun r1 =>
  tList v cfg (tFile v cfg fuel) args false 0 r1.1 >>= fun r2 =>
  tList v cfg (tFile v cfg fuel) (if cfg.processEnv && cfg.envAfter then env else []) false 0 r2.1 >>= fun r3 =>
  checkMand r3.1.grid >>= fun mandOk =>
  checkXor r3.1.grid (r3.1.grid.length + 1) 0 >>= fun xorOk =>
  tellMand v r3.1.grid >>= fun tm =>
  tellXor v r3.1.grid >>= fun tx =>
    ok (⟨r3.1.okay && mandOk && !(r3.1.queue.length > r3.1.tail) && xorOk, r3.1.grid, argv0 :: r2.2.1, r3.1.opens⟩,
      r1.2.2 ++ r2.2.2 ++ r3.2.2 ++ tm ++ tellWaiting v (r3.1.queue.length - r3.1.tail) ++ tx)

/-- The array with the texts for display. -/
def withTexts (grid : List AEntry) (texts : List (Option (List UInt8) × Option (List UInt8))) : List UEntry :=
  List.zipWith (fun e t => ⟨e, t.1, t.2⟩) grid texts

/-- `argv_process_no_env` — libmy/argv.c:3119-3258; see `argvProcess`.  What is left, and what is written: the message about the array;
or those about the line and then the usage message (`errType` is `argv_error_type`). -/
def tProcess (v : Voice) (errType : Nat) (texts : List (Option (List UInt8) × Option (List UInt8))) (cfg : ACfg) (fuel : Nat)
    (grid : List AEntry) (argv : List (List UInt8)) (stdin : List UInt8) (fds : Nat) : Outcome (AResult × List UInt8) :=
  match argv with
  | [] => ub
  | argv0 :: args =>
    preprocess grid >>= fun r =>
    match r with
    | none =>
      let n := grid.findIdx (fun e => e.short = argvLast)
      ok (⟨false, grid, argv, 0⟩, tellPre v n (grid.take n) 0 none false false)
    | some grid =>
      tProcessLists v cfg fuel grid argv0 args (envArgs cfg argv0) stdin fds >>= fun r =>
      if r.1.noError then ok r
      else doUsage v.prog (withTexts r.1.grid texts) errType >>= fun u => ok (r.1, r.2 ++ u)

end Wdns
