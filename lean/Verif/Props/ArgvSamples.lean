import Verif.Model.Argv

/-!
# Sample arrays for command lines
-/

namespace Wdns

/-- The settings as they are at first, without files and environment. -/
def argvCfg : ACfg := ⟨true, false, true, true, false, fun _ _ => none, fun _ => none, fun _ => none⟩

/-- `ARGV_LAST`. -/
def argvEnd : AEntry := ⟨255, none, 0, false, false, false, none⟩

/-- `-a`/`--alpha` or `-b`/`--beta`, exactly one of them; a counter `-v`; a number `-n`; a text `-o`; one mandatory argument,
and any number of others; with one readable entry behind the end. -/
def argvGrid : List AEntry :=
  [⟨97, some (ascii "alpha"), 1, false, false, false, some (.one (.num 0))⟩,
   ⟨251, none, 0, false, false, false, none⟩,
   ⟨98, some (ascii "beta"), 1, false, false, false, some (.one (.num 0))⟩,
   ⟨118, some (ascii "verbose"), 17, false, false, false, some (.one (.num 0))⟩,
   ⟨110, some (ascii "num"), 8, false, false, false, some (.one (.num 0))⟩,
   ⟨111, some (ascii "output"), 5, false, false, false, some (.one (.str none))⟩,
   ⟨254, none, 5, false, false, false, some (.one (.str none))⟩,
   ⟨253, none, 5, true, false, false, some (.many [])⟩,
   argvEnd, argvEnd]

/-- What a run with these settings leaves. -/
def argvRun (g : List AEntry) (argv : List (List UInt8)) : AResult :=
  match argvProcess argvCfg 3 g argv [] 0 with | .ok r => r | _ => ⟨false, [], [], 0⟩

end Wdns
