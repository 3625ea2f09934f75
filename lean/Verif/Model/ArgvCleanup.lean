import Verif.Model.Argv

/-!
# `argv_cleanup`: giving back what the processing of a command line has allocated

A variable of type `ARGV_CHAR_P` holds NULL (`.str none`), a string from `malloc` (`.str (some t)`, what `string_copy` in
`string_to_value` leaves, libmy/argv.c:1298-1303), or some other pointer (`.junk`): a literal as the default, memory that
was never written, or a string that has been freed.  The processing never looks at such a pointer.
-/

namespace Wdns
open Outcome

/-- `free` of pointers one after the other — libmy/argv.c:3491-3493, 3503: the strings given back. -/
def freeVals : List AVal → Outcome (List (List UInt8))
  | [] => ok []
  | .str none :: vs => freeVals vs
  | .str (some t) :: vs => freeVals vs >>= fun r => ok (t :: r)
  | _ :: _ => ub

/-- What a pointer is after `free`. -/
def danglingVal : AVal → AVal
  | .str none => .str none
  | _ => .junk

/-- The body of the loop of `argv_cleanup` — libmy/argv.c:3484-3506: the entry with its variable as it is left, and the
strings given back.  (The block with the pointers of an array is given back with them: not modelled.) -/
def cleanupEntry (e : AEntry) : Outcome (AEntry × List (List UInt8)) :=
  if e.array then
    match e.var with
    | some (.many vs) =>
      (if e.ty = 5 then freeVals vs else ok []) >>= fun r => ok ({ e with var := some (.many []) }, r)
    | _ => ub
  else if e.used ∧ e.ty = 5 then
    match e.var with
    | some (.one v) => freeVals [v] >>= fun r => ok ({ e with var := some (.one (danglingVal v)) }, r)
    | _ => ub
  else ok (e, [])

/-- `argv_cleanup` — libmy/argv.c:3467-3510, for an array that is there. -/
def argvCleanup : List AEntry → Outcome (List AEntry × List (List UInt8))
  | [] => ub
  | e :: es =>
    if e.short = argvLast then ok (e :: es, [])
    else cleanupEntry e >>= fun r => argvCleanup es >>= fun rs => ok (r.1 :: rs.1, r.2 ++ rs.2)

end Wdns
