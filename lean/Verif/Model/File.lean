import Verif.Model.ToText

/-!
# Model: `wdns_file_load_names` — wdns/file_load_names.c

The file is its contents, a list of octets, or `none` if it cannot be opened; reading it does not fail.  What the callback
does is not modelled: the model returns the list of the names it is called with.
-/

namespace Wdns
open Outcome

/-- `fgets(line, size, fp)` (C library): at most `size - 1` characters, up to and including a newline.  The characters
read and the rest of the file; `none` at the end of the file. -/
def fgetsGo : Nat → List UInt8 → List UInt8 × List UInt8
  | 0, f => ([], f)
  | _ + 1, [] => ([], [])
  | n + 1, c :: cs => if c = 10 then ([c], cs) else (c :: (fgetsGo n cs).1, (fgetsGo n cs).2)

/-- See `fgetsGo`. -/
def fgets (size : Nat) (f : List UInt8) : Option (List UInt8 × List UInt8) :=
  if f = [] then none else some (fgetsGo (size - 1) f)

/-- The body of the loop for one line — wdns/file_load_names.c:35-39: `none` if the line is skipped, else the result of
`wdns_str_to_name`.  `line` holds the characters read, a NUL, and old contents.  `strlen(line) - 1` is -1 if the first
character read is a NUL: an access before the buffer.  (A text that makes `wdns_str_to_name` read beyond its NUL is `ub`,
although here it first reads old contents of the buffer.) -/
def loadLine (line : List UInt8) : Outcome (Option CName) :=
  let c := line.getD 0 0
  if c = 10 ∨ c = 32 ∨ c = 35 then ok none
  else
    let s := cstrOf line
    if s = [] then ub
    else do
      let n ← strToName (if s.getLast? = some 10 then s.dropLast else s)
      ok (some n)

/-- The loop — wdns/file_load_names.c:34-43: the names given to the callback, and the result. -/
def loadLoop : Nat → List UInt8 → Outcome (List CName × Res)
  | 0, _ => hang
  | fuel + 1, f =>
    match fgets 1280 f with
    | none => ok ([], .success)
    | some (line, rest) =>
      match loadLine line with
      | ok none => loadLoop fuel rest
      | ok (some n) =>
        match loadLoop fuel rest with
        | ok r => ok (n :: r.1, r.2)
        | err e => err e
        | ub => ub
        | hang => hang
        | abort => abort
      | err e => ok ([], e)
      | ub => ub
      | hang => hang
      | abort => abort

/-- `wdns_file_load_names` — wdns/file_load_names.c:17-47. -/
def fileLoadNames (file : Option (List UInt8)) : Outcome (List CName × Res) :=
  match file with
  | none => ok ([], .failure)
  | some f => loadLoop (f.length + 1) f

end Wdns
