import Verif.Spec.Rdata

/-!
# Specification: texts the rdata scanner can read without leaving the text
-/

namespace Wdns.Spec

/-- White space of the C locale. -/
def IsBlank (c : UInt8) : Prop := c.toNat = 32 ∨ (9 ≤ c.toNat ∧ c.toNat ≤ 13)

/-- The word separators of the text: space, tab, carriage return, line feed. -/
def Separator (c : UInt8) : Prop := c = 32 ∨ c = 9 ∨ c = 13 ∨ c = 10

instance : DecidablePred IsBlank := fun c => by unfold IsBlank; infer_instance
instance : DecidablePred Separator := fun c => by unfold Separator; infer_instance

/-- No word ends after a backslash that has nothing to escape.  A backslash pairs with the character that follows it;
`odd` says that the character before `s` is a backslash still waiting for its partner. -/
def Paired : Bool → List UInt8 → Prop
  | odd, [] => odd = false
  | odd, c :: cs =>
    if c = 92 then Paired (!odd) cs
    else if Separator c then odd = false ∧ Paired false cs
    else Paired false cs

def decPaired : (odd : Bool) → (s : List UInt8) → Decidable (Paired odd s)
  | odd, [] => inferInstanceAs (Decidable (odd = false))
  | odd, c :: cs =>
    have := decPaired (!odd) cs
    have := decPaired false cs
    inferInstanceAs (Decidable (if c = 92 then Paired (!odd) cs
    else if Separator c then odd = false ∧ Paired false cs
    else Paired false cs))

instance (odd : Bool) : DecidablePred (Paired odd) := decPaired odd

/-- The text does not end in white space. -/
def NoBlankEnd (s : List UInt8) : Prop := ∀ c, s.getLast? = some c → ¬ IsBlank c

/-- The text has no `{`, neither plain nor written `\123`. -/
def NoBrace (s : List UInt8) : Prop := 123 ∉ s ∧ ¬ [92, 49, 50, 51] <:+: s

/-- What a text needs in order to be read as fields of the types `ts`: names need paired backslashes, base64 no `{`, hexadecimal no
white space at the end. -/
def ScanOK (ts : List Rdf) (s : List UInt8) : Prop :=
  ((∃ t ∈ ts, IsName t) → Paired false s) ∧
  (.bytesB64 ∈ ts ∨ .svcparams ∈ ts → NoBrace s) ∧
  (.bytes ∈ ts ∨ .salt ∈ ts → NoBlankEnd s)

end Wdns.Spec
