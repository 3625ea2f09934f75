import Verif.Model.Argv

/-!
# Model: the settings of the command line routines in the environment — libmy/argv.c, libmy/argv_loc.h

`process_env` and `argv_process`, with `argv_error_stream` NULL and `malloc` succeeding.
-/

namespace Wdns
open Outcome

/-- The settings of the user in front of `ACfg`: `argv_close_enable_b`, `argv_last_toggle_b`, `argv_multi_accept_b`,
`argv_process_env_b`, `argv_env_after_b`, `argv_error_type`, `argv_usage_type` — libmy/argv.c:83-138. -/
structure ASettings where
  closeEnable : Bool
  lastToggle : Bool
  multiAccept : Bool
  processEnv : Bool
  envAfter : Bool
  errorType : Nat
  usageType : Nat
deriving DecidableEq, Repr

/-- The values of the settings at the start of a program — libmy/argv.c:83-138, libmy/argv.h:184. -/
def initialSettings : ASettings := ⟨true, false, true, true, false, 2, 2⟩

/-- `disable`, `off`, `no`, `0` and `enable`, `on`, `yes`, `1` — libmy/argv.c:2936-2947, 2961-2972; `none` for another word. -/
def onOff (w : List UInt8) : Option Bool :=
  if w = ascii "disable" ∨ w = ascii "off" ∨ w = ascii "no" ∨ w = ascii "0" then some false
  else if w = ascii "enable" ∨ w = ascii "on" ∨ w = ascii "yes" ∨ w = ascii "1" then some true
  else none

/-- One setting — libmy/argv.c:2933-3087: `ARGV_USAGE_NONE` is 0, `_SHORT` 1, `_LONG` 2, `_SEE` 4, `_SHORT_REM` 5, `_ALL` 6
(argv.h:182-188). -/
def applyToken (s : ASettings) (tok : List UInt8) : ASettings :=
  if (ascii "close=").isPrefixOf tok then
    match onOff (tok.drop 6) with
    | some b => { s with closeEnable := b }
    | none => s
  else if (ascii "lasttog=").isPrefixOf tok then
    match onOff (tok.drop 8) with
    | some b => { s with lastToggle := b }
    | none => s
  else if (ascii "env=").isPrefixOf tok then
    let w := tok.drop 4
    if w = ascii "none" then { s with processEnv := false, envAfter := false }
    else if w = ascii "before" then { s with processEnv := true, envAfter := false }
    else if w = ascii "after" then { s with processEnv := true, envAfter := true }
    else s
  else if (ascii "error=").isPrefixOf tok then
    let w := tok.drop 6
    if w = ascii "none" then { s with errorType := 0 }
    else if w = ascii "see" then { s with errorType := 4 }
    else if w = ascii "short" then { s with errorType := 1 }
    else if w = ascii "shortrem" then { s with errorType := 5 }
    else if w = ascii "long" then { s with errorType := 2 }
    else if w = ascii "all" then { s with errorType := 6 }
    else s
  else if (ascii "multi=").isPrefixOf tok then
    let w := tok.drop 6
    if w = ascii "reject" then { s with multiAccept := false }
    else if w = ascii "accept" then { s with multiAccept := true }
    else s
  else if (ascii "usage=").isPrefixOf tok then
    let w := tok.drop 6
    if w = ascii "short" then { s with usageType := 1 }
    else if w = ascii "shortrem" then { s with usageType := 5 }
    else if w = ascii "long" then { s with usageType := 2 }
    else if w = ascii "all" then { s with usageType := 6 }
    else s
  else s

/-- The delimiters of `strsep` — libmy/argv.c:2925. -/
def settingSep (c : UInt8) : Bool := c = 32 || c = 9 || c = 44 || c = 58

/-- The loop — libmy/argv.c:2924-3088: `cur` is the token so far, in reverse; an empty one is skipped. -/
def tokenLoop : List UInt8 → List UInt8 → ASettings → ASettings
  | [], cur, s => if cur = [] then s else applyToken s cur.reverse
  | c :: cs, cur, s =>
    if settingSep c then tokenLoop cs [] (if cur = [] then s else applyToken s cur.reverse)
    else tokenLoop cs (c :: cur) s

/-- `done_b` and the settings. -/
structure AGlobal where
  done : Bool
  settings : ASettings
deriving DecidableEq, Repr

/-- `process_env` — libmy/argv.c:2896-3092. -/
def processEnvVar (getenv : List UInt8 → Option (List UInt8)) (g : AGlobal) : AGlobal :=
  if g.done then g
  else match getenv (ascii "GLOBAL_ARGV") with
    | none => ⟨true, g.settings⟩
    | some v => ⟨true, tokenLoop v [] g.settings⟩

/-- What `argv_process_no_env` sees of the settings. -/
def cfgOf (cfg : ACfg) (s : ASettings) : ACfg :=
  { cfg with closeEnable := s.closeEnable, lastToggle := s.lastToggle, multiAccept := s.multiAccept, processEnv := s.processEnv,
             envAfter := s.envAfter }

/-- `argv_process` — libmy/argv.c:3274-3291: the settings afterwards, and the result. -/
def argvProcessGlobal (cfg : ACfg) (g : AGlobal) (fuel : Nat) (grid : List AEntry) (argv : List (List UInt8)) (stdin : List UInt8)
    (fds : Nat) : Outcome (AGlobal × AResult) :=
  let g := processEnvVar cfg.getenv g
  argvProcess (cfgOf cfg g.settings) fuel grid argv stdin fds >>= fun r => ok (g, r)

/-- `argv_entry_was_used` — libmy/argv.c:3441-3449. -/
def argvEntryWasUsed (e : AEntry) : Bool := e.used

/-- `argv_long_was_used` — libmy/argv.c:3402-3423: `addr` is the address of the name of an entry (0 for NULL), `p` that of the
name that is asked for: addresses are compared, not names. -/
def argvLongWasUsed (addr : Nat → Nat) (grid : List AEntry) (p : Nat) : Nat → Outcome Bool
  | i => match grid with
    | [] => ub
    | e :: es =>
      if e.short = argvLast then ok false
      else if addr i = p then ok e.used
      else argvLongWasUsed addr es p (i + 1)

end Wdns
