import Verif.Spec.NameText
import Verif.Model.File

/-!
# Specification: loading names from a file
-/

namespace Wdns.Spec

/-- Lines that are not names: empty, beginning with a space, comments. -/
def Skipped (l : List UInt8) : Prop := l = [] ∨ l.head? = some 32 ∨ l.head? = some 35

instance : DecidablePred Skipped := fun l => by unfold Skipped; infer_instance

/-- `Loads ls ns r`: loading a file with the lines `ls` hands out the names `ns`, one for each line that is not skipped, in
order, and ends with the result `r`; a line that is not a name ends it with the error of `wdns_str_to_name`. -/
inductive Loads : List (List UInt8) → List CName → Res → Prop
  | done : Loads [] [] .success
  | skip {l ls ns r} : Skipped l → Loads ls ns r → Loads (l :: ls) ns r
  | name {l ls n ns r} : ¬ Skipped l → strToName l = .ok n → Loads ls ns r → Loads (l :: ls) (n :: ns) r
  | bad {l ls e} : ¬ Skipped l → strToName l = .err e → Loads (l :: ls) [] e

end Wdns.Spec
