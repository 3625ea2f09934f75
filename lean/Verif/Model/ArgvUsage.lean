import Verif.Model.ArgvShow

/-!
# libmy/argv.c: the usage messages and the display of the variables

What `argv_usage`, `--usage` and `--argv-display` write to `argv_error_stream`, which is not NULL.  The text is a list of octets.
Columns are `int`s; the differences with `sizeof` values are computed in `size_t` and stored in an `int`, which gives the
difference.  (Texts are shorter than 2^31 octets: `int` overflow is not modelled.)
-/

namespace Wdns
open Outcome

/-- An entry of the array with the texts that are only for display: `ar_var_label`, `ar_comment` — libmy/argv.h:97-107. -/
structure UEntry extends AEntry where
  label : Option (List UInt8)
  comment : Option (List UInt8)
deriving DecidableEq, Repr

/-- `%-.*s`: a negative precision counts as none (C11 7.21.6.1). -/
def cutAt (len : Int) (s : List UInt8) : List UInt8 := if len < 0 then s else s.take len.toNat

/-- `"%*.*s", n, n, ""`. -/
def spaces (n : Nat) : List UInt8 := List.replicate n 32

/-- `"\n%*.*s", USAGE_LABEL_LENGTH, USAGE_LABEL_LENGTH, ""` — libmy/argv.c:576-577 and alike. -/
def newLine : List UInt8 := ascii "\n" ++ spaces 7

/-- The words `ARGV_OR` and `ARGV_XOR` — libmy/argv.c:554-557 and alike. -/
def orEntry (e : AEntry) : Bool := e.short = argvOr || e.short = argvXor

/-- The flags of the short message — libmy/argv.c:551-607: the text, `mark_b`, `col_c`. -/
def flagLoop : List UEntry → Bool → Nat → Outcome (List UInt8 × Bool × Nat)
  | [], _, _ => ub
  | e :: es, mark, col =>
    if e.short = argvLast then ok ([], mark, col)
    else if orEntry e.toAEntry then flagLoop es mark col
    else if hasArg e.ty then flagLoop es mark col
    else if e.short = 0 then flagLoop es mark col
    else
      let a := if mark then ([], col)
        else if col + 3 > 77 then (newLine ++ ascii "[-", 9)
        else (ascii " [-", col + 3)
      let b := if a.2 + 1 > 78 then (ascii "]" ++ newLine ++ ascii "[-", 9) else ([], a.2)
      flagLoop es true (b.2 + 1) >>= fun r => ok (a.1 ++ b.1 ++ [e.short] ++ r.1, r.2)

/-- A word with a blank in front of it, or on a new line — libmy/argv.c:667-677, 688-700: the text and `col_c`. -/
def putWord (col : Nat) (w : List UInt8) : List UInt8 × Nat :=
  if col + (1 + w.length) > 79 then (newLine ++ w, 7 + w.length) else (ascii " " ++ w, col + (1 + w.length))

/-- `var_str` — libmy/argv.c:627-641. -/
def varLabel (e : UEntry) : List UInt8 :=
  match e.label with
  | some l => l
  | none => if e.ty = 3 ∨ e.ty = 22 then ascii "yes|no" else ascii "??"

/-- The options with a value and the other arguments of the short message — libmy/argv.c:613-702. -/
def valueLoop : List UEntry → Nat → Outcome (List UInt8)
  | [], _ => ub
  | e :: es, col =>
    if e.short = argvLast then ok []
    else if orEntry e.toAEntry then valueLoop es col
    else if !hasArg e.ty then valueLoop es col
    else if e.short = argvMand then
      let a := putWord col (varLabel e)
      valueLoop es a.2 >>= fun r => ok (a.1 ++ r)
    else if e.short = argvMaybe then
      let a := putWord col (ascii "[" ++ varLabel e ++ ascii "]")
      valueLoop es a.2 >>= fun r => ok (a.1 ++ r)
    else
      let a := putWord col (ascii "[-" ++ [e.short])
      let b := putWord a.2 (varLabel e ++ ascii "]")
      valueLoop es b.2 >>= fun r => ok (a.1 ++ b.1 ++ r)

/-- `usage_short` — libmy/argv.c:529-711. -/
def usageShort (prog : List UInt8) (args : List UEntry) (flag : Nat) : Outcome (List UInt8) :=
  flagLoop args false (7 + prog.length) >>= fun f =>
  valueLoop args (if f.2.1 then f.2.2 + 1 else f.2.2) >>= fun v =>
  ok (ascii "Usage: " ++ prog ++ f.1 ++ (if f.2.1 then ascii "]" else []) ++ v ++ ascii "\n" ++
    (if flag = 5 then spaces 7 ++ ascii "Use the '--usage' argument for more assistance.\n" else []))

/-- `display_arg` — libmy/argv.c:729-785: the text and the column. -/
def displayArg (e : UEntry) (max col : Int) : List UInt8 × Int :=
  if e.ty = 1 ∨ e.ty = 2 ∨ e.ty = 17 ∨ e.ty = 20 ∨ e.ty = 21 then ([], col)
  else if e.ty = 3 ∨ e.ty = 22 then (ascii "yes|no", col + 6)
  else if e.ty = 0 ∨ e.ty > 22 then ([], col)
  else
    match e.label with
    | none => (cutAt (max - col) (ascii "??"), col + min (max - col) 2)
    | some l => (cutAt (max - col) l, col + min (max - col) l.length)

/-- `display_option` — libmy/argv.c:807-832. -/
def displayOption (e : UEntry) (col : Int) : List UInt8 × Int :=
  let a := if e.short = argvMaybe then (ascii "[", col + 1)
    else if hasArg e.ty then (ascii "[-" ++ [e.short] ++ ascii " ", col + 4)
    else (ascii "[-" ++ [e.short], col + 3)
  let b := displayArg e 17 a.2
  (a.1 ++ b.1 ++ ascii "]", b.2 + 1)

/-- Blanks up to a column — libmy/argv.c:892-896, 926-931 and alike. -/
def padTo (k col : Int) : List UInt8 × Int := if col < k then (spaces (k - col).toNat, k) else ([], col)

/-- The first part of the line of an entry in the long message — libmy/argv.c:870-898: the text and `col_c`. -/
def longStart (e : UEntry) : List UInt8 × Int :=
  if e.short = 0 then (ascii "[", 1)
  else
    let a := if e.short = argvMand then displayArg e 34 0 else displayOption e 0
    ((a.1 ++ (padTo 18 a.2).1), (padTo 18 a.2).2)

/-- The long name — libmy/argv.c:900-911. -/
def longPart (e : UEntry) (a : List UInt8 × Int) : List UInt8 × Int :=
  match e.long with
  | none => a
  | some n =>
    if e.short = 0 then (a.1 ++ ascii "--" ++ cutAt (34 - a.2 - 3) n, a.2 + (2 + min (34 - a.2 - 3) n.length))
    else (a.1 ++ ascii "or " ++ ascii "--" ++ cutAt (34 - a.2 - 3 - 3) n, a.2 + 3 + (2 + min (34 - a.2 - 3 - 3) n.length))

/-- The value if there is no short name — libmy/argv.c:913-924. -/
def longValue (e : UEntry) (b : List UInt8 × Int) : List UInt8 × Int :=
  if e.short = 0 then
    let s := if hasArg e.ty then (b.1 ++ ascii " ", b.2 + 1) else b
    (s.1 ++ (displayArg e 33 s.2).1 ++ ascii "]", (displayArg e 33 s.2).2 + 1)
  else b

/-- The comment — libmy/argv.c:926-940. -/
def longComment (e : UEntry) (c : List UInt8 × Int) : List UInt8 :=
  match e.comment with
  | none => c.1 ++ ascii "\n"
  | some m => c.1 ++ (padTo 34 c.2).1 ++ cutAt (79 - (padTo 34 c.2).2) m ++ ascii "\n"

/-- The line of an entry in the long message — libmy/argv.c:870-940. -/
def longLine (e : UEntry) : List UInt8 := longComment e (longValue e (longPart e (longStart e)))

/-- The loop of `usage_long` — libmy/argv.c:862-941. -/
def uLongLoop : List UEntry → Outcome (List UInt8)
  | [] => ub
  | e :: es =>
    if e.short = argvLast then ok []
    else if orEntry e.toAEntry then uLongLoop es
    else uLongLoop es >>= fun r => ok (longLine e ++ r)

/-- `usage_long` — libmy/argv.c:847-942. -/
def usageLong (prog : List UInt8) (args : List UEntry) : Outcome (List UInt8) :=
  uLongLoop args >>= fun r => ok (ascii "Usage: " ++ prog ++ ascii "\n" ++ r)

/-- The lines at the end of `ARGV_USAGE_ALL` — libmy/argv.c:984-1013. -/
def usageHints : List UInt8 :=
  ascii "\nUse '--usage' for default usage information.\nUse '--usage-short' for short usage information.\nUse '--usage-long' for long usage information.\nUse '--usage-all' for all usage information.\nUse '--help' to display the help message.\nUse '--version' to display the version message.\nUse '--argv-display' to display the options and their values.\n"

/-- `do_usage` — libmy/argv.c:961-1014. -/
def doUsage (prog : List UInt8) (args : List UEntry) (flag : Nat) : Outcome (List UInt8) :=
  if flag = 4 then ok (spaces 7 ++ ascii "Use the '--usage' argument for assistance.\n")
  else if flag = 1 ∨ flag = 5 then usageShort prog args flag
  else if flag = 2 then usageLong prog args
  else if flag = 6 then usageLong prog args >>= fun t => ok (t ++ usageHints)
  else ok []

/-- `argv_usage` — libmy/argv.c:3319-3344, when `GLOBAL_ARGV` has been read (`usageType` is `argv_usage_type`). -/
def argvUsage (prog : List UInt8) (usageType : Nat) (args : Option (List UEntry)) (which : Nat) : Outcome (List UInt8) :=
  let args := args.getD [⟨⟨argvLast, none, 0, false, false, false, none⟩, none, none⟩]
  if which = 1 ∨ which = 2 ∨ which = 6 then doUsage prog args which else doUsage prog args usageType

/-- `argv_types`: the name of a type — libmy/argv_loc.h:165-211. -/
def typeNames : List String :=
  ["flag", "negative flag", "flag with arg", "character", "string", "short integer", "unsigned short integer", "integer", "unsigned integer",
   "long integer", "unsigned long", "floating point", "double floating point", "binary", "octal", "hexadecimal", "increment", "long size",
   "unsigned long size", "integer boolean", "integer boolean", "integer boolean"]

/-- The option in front of a value — libmy/argv.c:1752-1779: the text and `col_c`. -/
def displayStart (e : UEntry) : List UInt8 × Int :=
  let a :=
    if e.short = 0 then
      match e.long with
      | none => ([], 0)
      | some n => (ascii "--" ++ cutAt (34 - 0 - 3) n, 2 + min (34 - 0 - 3) (n.length : Int))
    else if e.short = argvMand then displayArg e 34 0
    else displayOption e 0
  (a.1 ++ (padTo 18 a.2).1, (padTo 18 a.2).2)

/-- The type — libmy/argv.c:1781-1805.  (The blank in front of the name is not counted.) -/
def displayType (e : UEntry) (a : List UInt8 × Int) : List UInt8 × Int :=
  let b :=
    match (if e.ty = 0 then none else typeNames[e.ty - 1]?) with
    | none => a
    | some n =>
      (a.1 ++ ascii " " ++ cutAt (34 - a.2 - 1) (ascii n) ++ (if e.array then ascii " array" else []),
       a.2 + min (34 - a.2 - 1) (ascii n).length + (if e.array then 6 else 0))
  (b.1 ++ (padTo 34 b.2).1, (padTo 34 b.2).2)

/-- `value_to_string` into the buffer of 256 octets and `fwrite` of what it says is the text — libmy/argv.c:1832-1833, 1838-1839:
the text and the buffer. -/
def displayValue (real : Bool → Nat → List UInt8) (ty : Nat) (v : AVal) (buf : List UInt8) : Outcome (List UInt8 × List UInt8) :=
  valueToString real ty v buf 256 >>= fun r => ok (r.1.take r.2, r.1)

/-- The entries of an array — libmy/argv.c:1825-1834. -/
def displayValues (real : Bool → Nat → List UInt8) (ty : Nat) : List AVal → Bool → List UInt8 → Outcome (List UInt8 × List UInt8)
  | [], _, buf => ok ([], buf)
  | v :: vs, first, buf =>
    displayValue real ty v buf >>= fun r =>
    displayValues real ty vs false r.2 >>= fun rs => ok ((if first then [] else ascii ",") ++ r.1 ++ rs.1, rs.2)

/-- The values of an entry — libmy/argv.c:1807-1840. -/
def displayVar (real : Bool → Nat → List UInt8) (e : UEntry) (buf : List UInt8) : Outcome (List UInt8 × List UInt8) :=
  match e.array, e.var with
  | true, some (.many []) => ok (ascii "no entries", buf)
  | true, some (.many vs) => displayValues real e.ty vs true buf
  | false, some (.one v) => displayValue real e.ty v buf
  | _, _ => ub

/-- `display_variables` — libmy/argv.c:1732-1843; `buf` is what the local buffer holds. -/
def displayVariables (real : Bool → Nat → List UInt8) : List UEntry → List UInt8 → Outcome (List UInt8)
  | [], _ => ub
  | e :: es, buf =>
    if e.short = argvLast then ok []
    else if orEntry e.toAEntry then displayVariables real es buf
    else
      displayVar real e buf >>= fun r =>
      displayVariables real es r.2 >>= fun rest => ok ((displayType e (displayStart e)).1 ++ r.1 ++ ascii "\n" ++ rest)

/-- The words `--usage`, `--help` and so on of a command line, when `argv_interactive` is set and no long option of the program
matches — libmy/argv.c:2550-2634: what is written before `exit(0)`; `none`: none of these words. -/
def answerWord (real : Bool → Nat → List UInt8) (prog : List UInt8) (usageType : Nat) (help version : Option (List UInt8))
    (grid : List UEntry) (buf rest : List UInt8) : Option (Outcome (List UInt8)) :=
  if rest.isPrefixOf (ascii "usage") ∨ rest.isPrefixOf (ascii "help") then some (doUsage prog grid usageType)
  else if rest.isPrefixOf (ascii "usage-short") then some (doUsage prog grid 1)
  else if rest.isPrefixOf (ascii "usage-long") then some (doUsage prog grid 2)
  else if rest.isPrefixOf (ascii "usage-all") then some (doUsage prog grid 6)
  else if rest.isPrefixOf (ascii "help") then
    some (ok (prog ++ ascii ": " ++ (match help with | none => ascii "I'm sor" ++ ascii "ry, no help is available." | some h => h) ++ ascii "\n"))
  else if rest.isPrefixOf (ascii "version") then
    some (ok (prog ++ ascii ": " ++ (match version with | none => ascii "no version information is available." | some v => v) ++ ascii "\n"))
  else if rest.isPrefixOf (ascii "argv-display") then some (displayVariables real grid buf)
  else none

end Wdns
