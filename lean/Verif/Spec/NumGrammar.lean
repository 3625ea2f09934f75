import Verif.Spec.ScanSafe
import Verif.Spec.Format
import Verif.Spec.RdataText
import Verif.Spec.RdataScan

/-!
# Specification: numbers and names of types, classes and parameter keys as the C library reads them
-/

namespace Wdns.Spec

/-- `d` is white space, perhaps a sign, and decimal digits that denote `m`; `neg` says that the sign is `-`. -/
def NumReads (d : List UInt8) (neg : Bool) (m : Nat) : Prop :=
  ∃ b sg ds, d = b ++ sg ++ ds ∧ (∀ c ∈ b, IsBlank c) ∧ ds ≠ [] ∧ (∀ c ∈ ds, IsDigit c) ∧ decVal ds = m ∧
    ((neg = false ∧ (sg = [] ∨ sg = [43])) ∨ (neg = true ∧ sg = [45]))

/-- `tok` names the type `t`: the mnemonic in any letter case, or — if it is no mnemonic — `TYPE` in any letter case and a number
(which may have a sign and leading white space and zeros). -/
def TypeReads (tok : List UInt8) (t : Nat) : Prop :=
  (∃ m, rrtypeToStr t = some m ∧ tok.map lower = m.map lower) ∨
  ((∀ u m, rrtypeToStr u = some m → tok.map lower ≠ m.map lower) ∧ t ≤ 65535 ∧
    ∃ p d neg, tok = p ++ d ∧ p.map lower = ascii "type" ∧ NumReads d neg t ∧ (neg = true → t = 0))

/-- The same for classes. -/
def ClassReads (tok : List UInt8) (t : Nat) : Prop :=
  (∃ m, rrclassToStr t = some m ∧ tok.map lower = m.map lower) ∨
  ((∀ u m, rrclassToStr u = some m → tok.map lower ≠ m.map lower) ∧ t ≤ 65535 ∧
    ∃ p d neg, tok = p ++ d ∧ p.map lower = ascii "class" ∧ NumReads d neg t ∧ (neg = true → t = 0))

/-- The value `strtoul` gives to a number: a number below `2^64`; a minus sign subtracts from `2^64`. -/
def UReads (d : List UInt8) (v : Nat) : Prop :=
  ∃ neg m, NumReads d neg m ∧ m < 2 ^ 64 ∧ v = if neg then (2 ^ 64 - m) % 2 ^ 64 else m

/-- `tok` names the parameter key `k` below 65535: the name, or `key` and a number. -/
def KeyReads (tok : List UInt8) (k : Nat) : Prop :=
  (k < 7 ∧ tok = keyText k) ∨
  ((∀ j < 7, tok ≠ keyText j) ∧ k < 65535 ∧ ∃ d, tok = ascii "key" ++ d ∧ UReads d k)

end Wdns.Spec
