import Verif.Props.Tables
import Verif.Props.NumGrammar
import Verif.Spec.Registry

/-!
# C47, C48, C49, C50, C66: the names and numbers are those of the registries
-/

namespace Wdns
open Outcome Spec

theorem switchOf_none {cases : List (Nat × List UInt8)} {v : Nat} (h : ∀ e ∈ cases, e.1 ≠ v) : switchOf cases v = none := by
  unfold switchOf
  rw [Option.map_eq_none_iff, List.find?_eq_none]
  intro e he
  simpa using h e he

theorem registered_none {bs : Blocks} {v : Nat} (h : ∀ b ∈ bs, v < b.1 ∨ b.1 + b.2.length ≤ v) : registered bs v = none := by
  unfold registered
  rw [Option.map_eq_none_iff, List.findSome?_eq_none_iff]
  intro b hb
  split
  · rw [List.getElem?_eq_none_iff]
    have := h b hb
    omega
  · rfl

/-- **C47.** For every number the name of the type, or `NULL`. -/
theorem C47_registry (t : Nat) : rrtypeToStr t = registered typeBlocks t := by
  by_cases h1 : t < 260
  · exact (by decide +kernel : ∀ t < 260, rrtypeToStr t = registered typeBlocks t) t h1
  by_cases h2 : t = 32768
  · subst h2; decide +kernel
  by_cases h3 : t = 32769
  · subst h3; decide +kernel
  have hk : ∀ e ∈ rrtypeCases, e.1 < 260 ∨ e.1 = 32768 ∨ e.1 = 32769 := by decide +kernel
  have hb : ∀ b ∈ typeBlocks, b.1 + b.2.length ≤ 260 ∨ b.1 = 32768 ∧ b.2.length = 2 := by decide +kernel
  unfold rrtypeToStr
  rw [switchOf_none (fun e he => by have := hk e he; omega), registered_none (fun b hb' => by have := hb b hb'; omega)]

/-- **C48.** For every number the name of the class, or `NULL`. -/
theorem C48_registry (c : Nat) : rrclassToStr c = registered classBlocks c := by
  by_cases h1 : c < 260
  · exact (by decide +kernel : ∀ t < 260, rrclassToStr t = registered classBlocks t) c h1
  have hk : ∀ e ∈ rrclassCases, e.1 < 260 := by decide +kernel
  have hb : ∀ b ∈ classBlocks, b.1 + b.2.length ≤ 260 := by decide +kernel
  unfold rrclassToStr
  rw [switchOf_none (fun e he => by have := hk e he; omega), registered_none (fun b hb' => by have := hb b hb'; omega)]

/-- **C49.** For every number the name of the response code, or `NULL`. -/
theorem C49_registry (c : Nat) : rcodeToStr c = registered rcodeBlocks c := by
  by_cases h1 : c < 20
  · exact (by decide +kernel : ∀ t < 20, rcodeToStr t = registered rcodeBlocks t) c h1
  have hk : ∀ e ∈ rcodeCases, e.1 < 20 := by decide +kernel
  have hb : ∀ b ∈ rcodeBlocks, b.1 + b.2.length ≤ 20 := by decide +kernel
  unfold rcodeToStr
  rw [switchOf_none (fun e he => by have := hk e he; omega), registered_none (fun b hb' => by have := hb b hb'; omega)]

/-- **C66.** For every number the name of the opcode, or `NULL`. -/
theorem C66_registry (o : Nat) : opcodeToStr o = registered opcodeBlocks o := by
  by_cases h1 : o < 20
  · exact (by decide +kernel : ∀ t < 20, opcodeToStr t = registered opcodeBlocks t) o h1
  have hb : ∀ b ∈ opcodeBlocks, b.1 + b.2.length ≤ 20 := by decide +kernel
  unfold opcodeToStr
  rw [switchOf_none (fun e he => by
    simp only [List.mem_cons, List.not_mem_nil, or_false] at he
    rcases he with rfl | rfl | rfl | rfl | rfl <;> dsimp only <;> omega), registered_none (fun b hb' => by have := hb b hb'; omega)]

/-- **C50.** For every key other than 65535 the name that is printed: the registered one, or `key` and the number. -/
theorem C50_registry (k : Nat) (hk : k ≠ 65535) : svcparamkeyToStr k = (registered keyBlocks k).getD (ascii "key" ++ decText k) := by
  have key : switchOf svcKeyNames k = registered keyBlocks k := by
    by_cases h1 : k < 20
    · exact (by decide +kernel : ∀ t < 20, switchOf svcKeyNames t = registered keyBlocks t) k h1
    have hk : ∀ e ∈ svcKeyNames, e.1 < 20 := by decide +kernel
    have hb : ∀ b ∈ keyBlocks, b.1 + b.2.length ≤ 20 := by decide +kernel
    rw [switchOf_none (fun e he => by have := hk e he; omega), registered_none (fun b hb' => by have := hb b hb'; omega)]
  unfold svcparamkeyToStr
  rw [key, ← fmtU_eq]
  cases registered keyBlocks k with
  | some s => rfl
  | none => rw [if_neg hk]; rfl

/-- **C47, C48, C49.** Reading: a registered name in any letter case gives its number. -/
theorem C47_reads_registry (t : Nat) (name s : List UInt8) (h : registered typeBlocks t = some name) (hs : s.map lower = name.map lower) :
    strToRrtype s = ok t := C47_named_type t name s (by rw [C47_registry]; exact h) hs

theorem C48_reads_registry (c : Nat) (name s : List UInt8) (h : registered classBlocks c = some name) (hs : s.map lower = name.map lower) :
    strToRrclass s = ok c := C48_named_class c name s (by rw [C48_registry]; exact h) hs

/-- Cases of `C47_reads_registry` and `C48_reads_registry`. -/
example : strToRrtype (ascii "hTTpS") = ok 65 ∧ strToRrclass (ascii "any") = ok 255 :=
  ⟨C47_reads_registry 65 (ascii "HTTPS") _ (by decide +kernel) (by decide), C48_reads_registry 255 (ascii "ANY") _ (by decide +kernel) (by decide)⟩

theorem C49_reads_registry (s : List UInt8) (c : Nat) :
    strToRcode s = ok c ↔ ∃ name, registered rcodeBlocks c = some name ∧ s.map lower = name.map lower := by
  rw [← C49_registry]
  exact C49_rcode_iff s c

example : registered typeBlocks 28 = some (ascii "AAAA") ∧ registered typeBlocks 65 = some (ascii "HTTPS") ∧ registered typeBlocks 53 = none ∧
    strToRrtype (ascii "https") = ok 65 := by decide +kernel

end Wdns
