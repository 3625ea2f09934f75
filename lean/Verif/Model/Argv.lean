import Verif.Model.Getenv
import Verif.Model.File
import Verif.Model.Atomic

/-!
# Model: command lines — libmy/argv.c, libmy/argv.h, libmy/argv_loc.h

`argv_process_no_env` and what it calls, as a program embeds them: with `argv_interactive` 0 and `argv_error_stream` NULL
(so nothing is printed and the process is not ended), and `malloc` succeeding.  Every entry of the array has a variable of
its own, of the type that the entry says.

The array is a list of entries that goes up to `ARGV_LAST` *and on*, as far as memory is readable: an access beyond it is
`ub`.  A pointer into the array is an index.  Strings are lists of octets without NUL.  The usage messages
(argv.c:529-1020) and `display_variables` are in `ArgvUsage`.  The settings in `GLOBAL_ARGV` (argv.c:2896-3092) are in `ArgvGlobal`, values as
text in `ArgvShow`.
-/

namespace Wdns
open Outcome

/-- What a variable holds; a floating-point number is its representation, `junk` is memory not yet written. -/
inductive AVal where
  | chr (c : UInt8)
  | str (s : Option (List UInt8))
  | num (n : Int)
  | real (bits : Nat)
  | junk
deriving DecidableEq, Repr

/-- `ar_variable`: one value, or an `argv_array_t` (argv.h:98-101) with its entries. -/
inductive AVar where
  | one (v : AVal)
  | many (vs : List AVal)
deriving DecidableEq, Repr

/-- `argv_t` — libmy/argv.h:79-86.  `ar_type` is its low six bits `ty` and the flags `ARGV_FLAG_ARRAY`, `ARGV_FLAG_MAND`
(argv.h:177-178) and `ARGV_FLAG_USED` (argv_loc.h:92).  `var` is `none` for NULL. -/
structure AEntry where
  short : UInt8
  long : Option (List UInt8)
  ty : Nat
  array : Bool
  mand : Bool
  used : Bool
  var : Option AVar
deriving DecidableEq, Repr

/-- `ARGV_LAST`, `ARGV_MAND`, `ARGV_MAYBE`, `ARGV_OR`, `ARGV_XOR` — libmy/argv.h:115-147. -/
def argvLast : UInt8 := 255
/-- See `argvLast`. -/
def argvMand : UInt8 := 254
/-- See `argvLast`. -/
def argvMaybe : UInt8 := 253
/-- See `argvLast`. -/
def argvOr : UInt8 := 252
/-- See `argvLast`. -/
def argvXor : UInt8 := 251

/-- The settings and the surroundings: `argv_close_enable_b`, `argv_last_toggle_b`, `argv_multi_accept_b`,
`argv_process_env_b`, `argv_env_after_b` — libmy/argv.c:83-138; `sscanf` with `%f` (`false`) and `%lf` (`true`): the number
read, `none` if there is none; the contents of the files that can be opened; `getenv`. -/
structure ACfg where
  closeEnable : Bool
  lastToggle : Bool
  multiAccept : Bool
  processEnv : Bool
  envAfter : Bool
  readReal : Bool → List UInt8 → Option Nat
  files : List UInt8 → Option (List UInt8)
  getenv : List UInt8 → Option (List UInt8)

/-- The state of the processing: the array, `queue_list` (its contents up to `queue_head`; `none` is the NULL that stands
for `--argv-file`) with room for `cap` pointers, `queue_tail`, `okay_b`; what is left on standard input, how many more files
can be open at a time, and how many have been opened. -/
structure AState where
  grid : List AEntry
  queue : List (Option Nat)
  cap : Nat
  tail : Nat
  okay : Bool
  stdin : List UInt8
  fds : Nat
  opens : Nat
deriving DecidableEq, Repr

/-- `HAS_ARG` — libmy/argv_loc.h:156-160. -/
def hasArg (ty : Nat) : Bool := !(ty = 1 || ty = 2 || ty = 17 || ty = 20 || ty = 21)

/-- `ar_short_arg` is `ARGV_OR` or `ARGV_XOR`. -/
def isOr (e : AEntry) : Bool := e.short = argvOr || e.short = argvXor

/-- Reading the entry `i` through a pointer. -/
def entryAt (grid : List AEntry) (i : Nat) : Outcome AEntry := match grid[i]? with | some e => ok e | none => ub

/-- `atoi` (C library): `(int)strtol(s, NULL, 10)`. -/
def atoi (s : List UInt8) : Int := toSigned 32 (strtol s).1

/-- The digit loops of `btoi`, `otoi`, `htoi` — libmy/argv.c:204-207, 235-238, 272-285: `ret *= base` beyond `INT_MAX` is
undefined. -/
def baseLoop (b : Nat) : List UInt8 → Nat → Outcome Nat
  | [], ret => ok ret
  | c :: cs, ret =>
    if isDigitIn b c then
      if ret * b > 2 ^ 31 - 1 then ub else baseLoop b cs (ret * b + (hexDigitValue c).getD 0)
    else ok ret

/-- `btoi` (2), `otoi` (8) and `htoi` (16, with the leading `0x`) — libmy/argv.c:195-288. -/
def baseToInt (b : Nat) (s : List UInt8) : Outcome Int :=
  let s := s.dropWhile isSpace
  let s := if b = 16 ∧ s.getD 0 0 = 48 ∧ (s.getD 1 0 = 120 ∨ s.getD 1 0 = 88) then s.drop 2 else s
  (baseLoop b s 0) >>= fun n => ok (n : Int)

/-- The truth of a text: its first character is one of `tTyY1` — libmy/argv.c:1257-1259 and alike. -/
def boolText (s : List UInt8) : Bool := (ascii "tTyY1").contains (s.getD 0 0)

/-- The characters skipped in front of the unit — libmy/argv.c:1369-1373. -/
def sizeSkip (c : UInt8) : Bool := c = 32 || c = 45 || c = 43 || (48 ≤ c.toNat && c.toNat ≤ 57)

/-- The unit of a size — libmy/argv.c:1368-1386, 1401-1419. -/
def sizeUnit (s : List UInt8) : Int :=
  let c := (s.dropWhile sizeSkip).getD 0 0
  if c = 107 ∨ c = 75 then 1024
  else if c = 109 ∨ c = 77 then 1024 * 1024
  else if c = 103 ∨ c = 71 then 1024 * 1024 * 1024
  else 1

/-- The switch of `string_to_value` for the value that was there before — libmy/argv.c:1250-1457.  A NULL `arg` is allowed
for the types without an argument only.  `%f` without a number leaves the value as it was. -/
def convert (cfg : ACfg) (ty : Nat) (arg : Option (List UInt8)) (old : AVal) : Outcome AVal :=
  match ty, arg with
  | 1, none => ok (.num 1)
  | 1, some s => ok (.num (testInt (boolText s)))
  | 2, none => ok (.num 0)
  | 2, some s => ok (.num (testInt (boolText s)))
  | 17, none => match old with
    | .num n => if n + 1 > 2 ^ 31 - 1 then ub else ok (.num (n + 1))
    | _ => ub
  | 17, some s => ok (.num (atoi s))
  | 20, none => ok (.num 1)
  | 20, some s => ok (.num (testInt (boolText s)))
  | 21, none => ok (.num 0)
  | 21, some s => ok (.num (testInt (boolText s)))
  | _, none => ub
  | 3, some s => ok (.num (testInt (boolText s)))
  | 4, some s => ok (.chr (s.getD 0 0))
  | 5, some s => ok (.str (some s))
  | 6, some s => ok (.num (toSigned 16 (atoi s)))
  | 7, some s => ok (.num (atoi s % 2 ^ 16))
  | 8, some s => ok (.num (atoi s))
  | 9, some s => ok (.num (atoi s % 2 ^ 32))
  | 10, some s => ok (.num (strtol s).1)
  | 11, some s => ok (.num ((strtol s).1 % 2 ^ 64))
  | 12, some s => ok (((cfg.readReal false s).map AVal.real).getD old)
  | 13, some s => ok (((cfg.readReal true s).map AVal.real).getD old)
  | 14, some s => baseToInt 2 s >>= fun n => ok (.num n)
  | 15, some s => baseToInt 8 s >>= fun n => ok (.num n)
  | 16, some s => baseToInt 16 s >>= fun n => ok (.num n)
  | 18, some s =>
    let v := (strtol s).1 * sizeUnit s
    if v < -2 ^ 63 ∨ v > 2 ^ 63 - 1 then ub else ok (.num v)
  | 19, some s => ok (.num ((strtol s).1 * sizeUnit s % 2 ^ 64))
  | 22, some s => ok (.num (testInt (boolText s)))
  | _, some _ => ok old

/-- `string_to_value` for an entry — libmy/argv.c:1199-1460: whether it is `NOERROR`, and the entry with its variable.  An
array gets one more element (the growth of `aa_entries` in steps of `ARRAY_INCR` is not modelled). -/
def stringToValue (cfg : ACfg) (arg : Option (List UInt8)) (e : AEntry) : Outcome (Bool × AEntry) :=
  if e.ty = 0 ∨ e.ty > 22 then ok (false, e)
  else match e.array, e.var with
    | true, some (.many vs) => convert cfg e.ty arg .junk >>= fun v => ok (true, { e with var := some (.many (vs ++ [v])) })
    | false, some (.one old) => convert cfg e.ty arg old >>= fun v => ok (true, { e with var := some (.one v) })
    | _, _ => ub

/-- The loop of `preprocess_array` — libmy/argv.c:1042-1167, over the entries in front of `ARGV_LAST`, `n` of them: the
flags `USED` cleared and the arrays emptied, or `none` for `ERROR`.  (After an `ERROR` the array is not looked at again:
what was changed up to there is left out.)  An array entry without a variable is written through before the check. -/
def preLoop (n : Nat) : List AEntry → Nat → Option AEntry → Bool → Bool → Outcome (Option (List AEntry))
  | [], _, _, _, _ => ok (some [])
  | e :: es, i, prev, mandArr, maybe =>
    if e.short = argvMand ∧ (mandArr ∨ maybe) then ok none
    else if e.short = argvMaybe ∧ mandArr then ok none
    else if e.array ∧ !hasArg e.ty then ok none
    else if e.array ∧ e.var = none then ub
    else if e.var = none ∧ !isOr e then ok none
    else if isOr e ∧ (i = 0 ∨ i + 1 ≥ n) then ok none
    else if isOr e ∧ (prev.map isOr).getD false then ok none
    else
      (preLoop n es (i + 1) (some e) (mandArr || (e.array && (e.short = argvMand || e.short = argvMaybe)))
        (maybe || e.short = argvMaybe)) >>= fun r =>
          ok (r.map fun es' => { e with used := false, var := if e.array then some (.many []) else e.var } :: es')

/-- `preprocess_array`, with the count of the entries — libmy/argv.c:3176-3185, 1036-1170. -/
def preprocess (grid : List AEntry) : Outcome (Option (List AEntry)) :=
  let n := grid.findIdx (fun e => e.short = argvLast)
  if n = grid.length then ub
  else preLoop n (grid.take n) 0 none false false >>= fun r => ok (r.map (· ++ grid.drop n))

/-- A loop through the array that ends at `ARGV_LAST` (`none`) or at the first entry of a kind — libmy/argv.c:2654-2660,
2760-2766, 2780-2786. -/
def scanGrid (p : AEntry → Bool) : List AEntry → Nat → Outcome (Option Nat)
  | [], _ => ub
  | e :: es, i => if e.short = argvLast then ok none else if p e then ok (some i) else scanGrid p es (i + 1)

/-- `check_or`, the entries below — libmy/argv.c:1868-1878: whether one of them is used. -/
def orBelow (grid : List AEntry) : Nat → Outcome Bool
  | k + 2 =>
    entryAt grid (k + 1) >>= fun sep =>
    if !isOr sep then ok false
    else entryAt grid k >>= fun e => if e.used then ok true else orBelow grid k
  | _ => ok false

/-- `check_or`, the entries above — libmy/argv.c:1881-1896; `j` is `arg_p`.  The first thing read is the entry `which_p + 2`. -/
def orAbove (grid : List AEntry) : Nat → Nat → Outcome Bool
  | 0, _ => hang
  | fuel + 1, j =>
    entryAt grid j >>= fun e =>
    if e.short = argvLast then ok false
    else entryAt grid (j - 1) >>= fun sep =>
      if sep.short = argvLast then ok false
      else if !isOr sep then ok false
      else if e.used then ok true
      else orAbove grid fuel (j + 2)

/-- `check_or` — libmy/argv.c:1863-1932: whether an alternative of entry `i` is used.  (With `argv_error_stream` NULL.) -/
def checkOr (grid : List AEntry) (i : Nat) : Outcome Bool :=
  orBelow grid i >>= fun b => if b then ok true else orAbove grid (grid.length + 1) (i + 2)

/-- The inner loop of `check_xor` — libmy/argv.c:1980-1991: from the `ARGV_XOR` at `k`, the last entry of the group and
whether one was used. -/
def xorRun (grid : List AEntry) : Nat → Nat → Bool → Outcome (Nat × Bool)
  | 0, _, _ => hang
  | fuel + 1, k, used =>
    entryAt grid (k + 1) >>= fun e =>
    entryAt grid (k + 2) >>= fun sep =>
    if sep.short = argvXor then xorRun grid fuel (k + 2) (used || e.used) else ok (k + 1, used || e.used)

/-- `check_xor` — libmy/argv.c:1954-2026: whether every group has a used entry. -/
def checkXor (grid : List AEntry) : Nat → Nat → Outcome Bool
  | 0, _ => hang
  | fuel + 1, k =>
    entryAt grid k >>= fun e =>
    if e.short = argvLast then ok true
    else if e.short ≠ argvXor then checkXor grid fuel (k + 1)
    else if k = 0 then ub
    else entryAt grid (k - 1) >>= fun below =>
      xorRun grid (grid.length + 1) k below.used >>= fun r =>
      if r.2 then checkXor grid fuel (r.1 + 1) else ok false

/-- `check_mand` — libmy/argv.c:2047-2096: whether everything mandatory is used. -/
def checkMand : List AEntry → Outcome Bool
  | [] => ub
  | e :: es =>
    if e.short = argvLast then ok true
    else checkMand es >>= fun r => ok (r && !((e.short = argvMand || e.mand) && !e.used))

/-- `do_arg` — libmy/argv.c:2302-2362, for entry `i`; `close` is the text behind `=`. -/
def doArg (cfg : ACfg) (i : Nat) (close : Option (List UInt8)) (s : AState) : Outcome AState :=
  entryAt s.grid i >>= fun e =>
  let twice := !cfg.multiAccept && e.used && !e.array && e.ty ≠ 17
  let e := { e with used := true }
  let grid := s.grid.set i e
  checkOr grid i >>= fun clash =>
  let okay := s.okay && !twice && !clash
  if close.isSome ∨ !hasArg e.ty then
    stringToValue cfg close e >>= fun r =>
      ok { s with grid := grid.set i r.2, okay := okay && r.1 }
  else if s.queue.length < s.cap then ok { s with grid := grid, queue := s.queue ++ [some i], okay := okay }
  else ub

/-- `is_number` — libmy/argv.c:2382-2404. -/
def isNumber (s : List UInt8) : Bool := s ≠ [] && s.all fun c => (ascii "0123456789+-.").contains c

/-- The text in front of `=`, if values can be written like that — libmy/argv.c:2478-2486, 2617-2625.  The argument itself
is cut there. -/
def punch (cfg : ACfg) (a : List UInt8) : List UInt8 := if cfg.closeEnable then a.takeWhile (· ≠ 61) else a

/-- The text behind `=`; `none` if there is no `=` — see `punch`. -/
def closeText (cfg : ACfg) (a : List UInt8) : Option (List UInt8) :=
  if cfg.closeEnable ∧ (61 : UInt8) ∈ a then some ((a.dropWhile (· ≠ 61)).drop 1) else none

/-- What looking for a long option gives. -/
inductive LongRes where
  | two
  | found (i : Nat)
  | no
deriving DecidableEq, Repr

/-- The comparison with the long name of an entry — libmy/argv.c:2505-2511: the first `len` characters, those of `rest`,
have to agree. -/
def longMatches (rest : List UInt8) (e : AEntry) : Bool := match e.long with | some l => rest.isPrefixOf l | none => false

/-- The loop that looks for a long option — libmy/argv.c:2504-2534: `rest` is the text behind `--`, the first of its
length characters have to agree. -/
def longLoop (rest : List UInt8) : List AEntry → Nat → Option Nat → Outcome LongRes
  | [], _, _ => ub
  | e :: es, i, m =>
    if e.short = argvLast then ok (match m with | some k => .found k | none => .no)
    else if longMatches rest e then
      match m with
      | some _ => ok .two
      | none => longLoop rest es (i + 1) (some i)
    else longLoop rest es (i + 1) m

/-- A long option — libmy/argv.c:2471-2605.  (`--usage`, `--help`, `--version`, `--argv-display` and their prefixes do
nothing if `argv_interactive` is 0.) -/
def doLong (cfg : ACfg) (fileK : List UInt8 → AState → Outcome AState) (a : List UInt8) (s : AState) : Outcome AState :=
  let close := closeText cfg a
  let rest := (punch cfg a).drop 2
  if rest = [] then ok { s with okay := false }
  else longLoop rest s.grid 0 none >>= fun r =>
    match r with
    | .two => ok { s with okay := false }
    | .found i => doArg cfg i close s
    | .no =>
      if rest.isPrefixOf (ascii "argv-file") then
        match close with
        | some path => fileK path s
        | none => if s.queue.length < s.cap then ok { s with queue := s.queue ++ [none] } else ub
      else if rest.isPrefixOf (ascii "usage") ∨ rest.isPrefixOf (ascii "help") ∨ rest.isPrefixOf (ascii "usage-short") ∨
          rest.isPrefixOf (ascii "usage-long") ∨ rest.isPrefixOf (ascii "usage-all") ∨ rest.isPrefixOf (ascii "version") ∨
          rest.isPrefixOf (ascii "argv-display") then ok s
      else ok { s with okay := false }

/-- The loop through the characters of a short option — libmy/argv.c:2642-2720: `full` is the argument, `first` says
whether this is its first option character. -/
def clusterLoop (cfg : ACfg) (full : List UInt8) (close : Option (List UInt8)) : List UInt8 → Bool → AState → Outcome AState
  | [], _, s => ok s
  | c :: cs, first, s =>
    scanGrid (fun e => e.short = c) s.grid 0 >>= fun m =>
    match m with
    | some i => doArg cfg i close s >>= fun s => clusterLoop cfg full close cs false s
    | none =>
      if c = 63 then clusterLoop cfg full close cs false s
      else if first ∧ isNumber full ∧ s.queue.length > s.tail then
        match s.queue[s.tail]? with
        | some (some i) =>
          entryAt s.grid i >>= fun e =>
          if e.ty = 6 ∨ e.ty = 8 ∨ e.ty = 10 ∨ e.ty = 12 ∨ e.ty = 13 then
            stringToValue cfg (some full) e >>= fun r => ok { s with grid := s.grid.set i r.2, tail := s.tail + 1 }
          else clusterLoop cfg full close cs false { s with okay := false }
        | _ => ub
      else clusterLoop cfg full close cs false { s with okay := false }

/-- A short option — libmy/argv.c:2607-2722. -/
def doShort (cfg : ACfg) (a : List UInt8) (s : AState) : Outcome AState :=
  let full := punch cfg a
  if full.drop 1 = [] then ok { s with okay := false }
  else clusterLoop cfg full (closeText cfg a) (full.drop 1) true s

/-- An argument that is not an option — libmy/argv.c:2724-2800: the value that the oldest option waits for, or the next
mandatory or optional argument. -/
def doValue (cfg : ACfg) (fileK : List UInt8 → AState → Outcome AState) (a : List UInt8) (s : AState) : Outcome AState :=
  entryAt s.grid 0 >>= fun e0 =>
  if e0.short ≠ argvLast ∧ s.queue.length > s.tail then
    match s.queue[s.tail]? with
    | some none => fileK a { s with tail := s.tail + 1 }
    | some (some i) =>
      entryAt s.grid i >>= fun e =>
      stringToValue cfg (some a) e >>= fun r =>
        ok { s with grid := s.grid.set i r.2, tail := s.tail + 1, okay := s.okay && r.1 }
    | none => ub
  else
    scanGrid (fun e => e.short = argvMand && (!e.used || e.array)) s.grid 0 >>= fun m =>
    match m with
    | some i =>
      entryAt s.grid i >>= fun e =>
      stringToValue cfg (some a) e >>= fun r =>
        ok { s with grid := s.grid.set i { r.2 with used := true }, okay := s.okay && r.1 }
    | none =>
      scanGrid (fun e => e.short = argvMaybe && (!e.used || e.array)) s.grid 0 >>= fun m =>
      match m with
      | some i =>
        entryAt s.grid i >>= fun e =>
        stringToValue cfg (some a) e >>= fun r =>
          ok { s with grid := s.grid.set i { r.2 with used := true }, okay := s.okay && r.1 }
      | none => ok { s with okay := false }

/-- `do_list` — libmy/argv.c:2435-2815; `last` is `last_arg_b`, `fileK` is `file_args`.  The state and the arguments as
they are left (cut at `=`).  A `strncmp` with the prefix compares the first characters. -/
def doList (cfg : ACfg) (fileK : List UInt8 → AState → Outcome AState) :
    List (List UInt8) → Bool → AState → Outcome (AState × List (List UInt8))
  | [], _, s => ok (s, [])
  | a :: as, last, s =>
    if a = ascii "--" ∧ last ∧ cfg.lastToggle then
      doList cfg fileK as false s >>= fun r => ok (r.1, a :: r.2)
    else if a = ascii "--" ∧ !last then
      doList cfg fileK as true s >>= fun r => ok (r.1, a :: r.2)
    else if !last ∧ a.take 2 = ascii "--" then
      doLong cfg fileK a s >>= fun s => doList cfg fileK as last s >>= fun r => ok (r.1, punch cfg a :: r.2)
    else if !last ∧ a.take 1 = ascii "-" ∧ a.length ≠ 1 then
      doShort cfg a s >>= fun s => doList cfg fileK as last s >>= fun r => ok (r.1, punch cfg a :: r.2)
    else
      doValue cfg fileK a s >>= fun s => doList cfg fileK as last s >>= fun r => ok (r.1, a :: r.2)

/-- The lines of an argument file — libmy/argv.c:2213-2228: read by `fgets` into 1024 characters, cut at the newline (and
at a NUL), empty ones skipped.  (The array that holds them grows by ten; this is not modelled.) -/
def fileLines : Nat → List UInt8 → List (List UInt8)
  | 0, _ => []
  | n + 1, f => match fgets 1024 f with
    | none => []
    | some (l, rest) =>
      let t := l.takeWhile fun c => c ≠ 10 && c ≠ 0
      if t = [] then fileLines n rest else t :: fileLines n rest

/-- `file_args` — libmy/argv.c:2164-2276.  The first argument bounds the nesting of the calls.  `fopen` gives NULL if there
is no such file or too many are open; `-` is standard input, read to its end. -/
def fileArgs (cfg : ACfg) : Nat → List UInt8 → AState → Outcome AState
  | 0, _, _ => hang
  | n + 1, path, s =>
    if path = ascii "-" then
      doList cfg (fileArgs cfg n) (fileLines s.stdin.length s.stdin) false { s with stdin := [] } >>= fun r => ok r.1
    else match cfg.files path with
      | none => ok { s with okay := false }
      | some text =>
        if s.fds = 0 then ok { s with okay := false }
        else
          doList cfg (fileArgs cfg n) (fileLines text.length text) false
            { s with fds := s.fds - 1, opens := s.opens + 1 } >>= fun r => ok { r.1 with fds := r.1.fds + 1 }

/-- `vectorize(str, " \t", &n)` — libmy/argv.c:358-420: the pieces between blanks, without the empty ones (`cur` is the
piece being read). -/
def vectorize : List UInt8 → List UInt8 → List (List UInt8)
  | [], cur => if cur = [] then [] else [cur]
  | c :: cs, cur =>
    if c = 32 ∨ c = 9 then (if cur = [] then vectorize cs [] else cur :: vectorize cs []) else vectorize cs (cur ++ [c])

/-- The program's name: what is behind the last `/`, at most 256 characters — libmy/argv.c:3157-3174. -/
def programName (argv0 : List UInt8) : List UInt8 := ((argv0.reverse.takeWhile (· ≠ 47)).reverse).take 256

/-- `preprocess_env_args` — libmy/argv.c:2844-2875: the words of `ARGV_` and the program's name in upper case. -/
def envArgs (cfg : ACfg) (argv0 : List UInt8) : List (List UInt8) :=
  match cfg.getenv (ascii "ARGV_" ++ (programName argv0).map fun c => UInt8.ofNat (asciiToupper c.toNat)) with
  | none => []
  | some v => vectorize v []

/-- What `argv_process_no_env` leaves: `NOERROR` or not, the array, the arguments (cut at `=`), and the state of the files. -/
structure AResult where
  noError : Bool
  grid : List AEntry
  argv : List (List UInt8)
  opens : Nat
deriving DecidableEq, Repr

/-- The processing after the preparation — libmy/argv.c:3192-3229, 3231-3256: the lists, one after the other, and the final
checks.  (A second list is not read if there is none: `do_list` of no arguments does nothing.) -/
def processLists (cfg : ACfg) (fuel : Nat) (grid : List AEntry) (argv0 : List UInt8) (args env : List (List UInt8))
    (stdin : List UInt8) (fds : Nat) : Outcome AResult :=
  let s0 : AState := ⟨grid, [], args.length + 1 + env.length, 0, true, stdin, fds, 0⟩
  doList cfg (fileArgs cfg fuel) (if cfg.processEnv && !cfg.envAfter then env else []) false s0 >>= fun r1 =>
  doList cfg (fileArgs cfg fuel) args false r1.1 >>= fun r2 =>
  doList cfg (fileArgs cfg fuel) (if cfg.processEnv && cfg.envAfter then env else []) false r2.1 >>= fun r3 =>
  checkMand r3.1.grid >>= fun mandOk =>
  checkXor r3.1.grid (r3.1.grid.length + 1) 0 >>= fun xorOk =>
    ok ⟨r3.1.okay && mandOk && !(r3.1.queue.length > r3.1.tail) && xorOk, r3.1.grid, argv0 :: r2.2, r3.1.opens⟩

/-- `argv_process_no_env` — libmy/argv.c:3119-3258, for `arg_n` arguments with `argv[arg_n]` NULL: without any argument the
program's name is read through NULL.  `fuel` bounds the nesting of argument files.  (`args` NULL, `arg_n` negative and
`argv` NULL are not modelled.) -/
def argvProcess (cfg : ACfg) (fuel : Nat) (grid : List AEntry) (argv : List (List UInt8)) (stdin : List UInt8)
    (fds : Nat) : Outcome AResult :=
  match argv with
  | [] => ub
  | argv0 :: args =>
    preprocess grid >>= fun r =>
    match r with
    | none => ok ⟨false, grid, argv, 0⟩
    | some grid => processLists cfg fuel grid argv0 args (envArgs cfg argv0) stdin fds

/-- `argv_was_used` — libmy/argv.c:3363-3384. -/
def argvWasUsed (grid : List AEntry) (c : UInt8) : Outcome Bool :=
  scanGrid (fun e => e.short = c) grid 0 >>= fun m =>
    match m with
    | some i => entryAt grid i >>= fun e => ok e.used
    | none => ok false

/-- The inner loop of `argv_copy_args` — libmy/argv.c:3566-3568: the characters of an argument, and `size_c` after it. -/
def copyArg : List UInt8 → Nat → List UInt8 × Nat
  | [], size => ([], size)
  | c :: cs, size => if size ≥ 2 then (c :: (copyArg cs (size - 1)).1, (copyArg cs (size - 1)).2) else ([], size)

/-- The outer loop of `argv_copy_args` — libmy/argv.c:3550-3569; `first` says that no argument has been copied yet. -/
def copyArgsLoop : List (List UInt8) → Bool → Nat → List UInt8
  | [], _, _ => []
  | a :: as, first, size =>
    if size < 2 then []
    else
      let sep : List UInt8 := if first then [] else [32]
      let size := if first then size else size - 1
      sep ++ (copyArg a size).1 ++ copyArgsLoop as false (copyArg a size).2

/-- `argv_copy_args` — libmy/argv.c:3532-3574: what is written to `buf`, the final NUL included; `argv` is `argv_argv`
(empty if it is NULL). -/
def argvCopyArgs (argv : List (List UInt8)) (size : Nat) : List UInt8 :=
  if size = 0 then []
  else if size = 1 then [0]
  else copyArgsLoop (argv.drop 1) true size ++ [0]

end Wdns
