import Verif.Model.Misc

/-!
# C97: printing octets between quotation marks
-/

namespace Wdns
open Outcome

/-- One character: printable ASCII. -/
theorem C97_printable (s : List UInt8) : ∀ c ∈ printString s, 32 ≤ c.toNat ∧ c.toNat ≤ 126 := by
  have hd : ∀ n < 16, 32 ≤ (hexDig n).toNat ∧ (hexDig n).toNat ≤ 126 := by decide +kernel
  intro c hc
  simp only [printString, List.mem_append, List.mem_singleton, List.mem_flatMap] at hc
  rcases hc with (rfl | ⟨b, _, hb⟩) | rfl
  · decide
  · unfold psByte at hb
    have hb256 := b.toNat_lt
    split at hb
    · split at hb
      · simp only [List.mem_cons, List.not_mem_nil, or_false] at hb
        rcases hb with rfl | rfl <;> decide
      · simp only [List.mem_singleton] at hb
        subst hb; assumption
    · simp only [List.mem_cons, List.not_mem_nil, or_false] at hb
      rcases hb with rfl | rfl | rfl | rfl
      · decide
      · decide
      · exact hd _ (by omega)
      · exact hd _ (by omega)
  · decide

/-- A quotation mark inside is always escaped: those of the output are the first, the last and those behind a backslash. -/
theorem C97_quotes (s : List UInt8) : ∃ parts : List (List UInt8), printString s = [34] ++ parts.flatten ++ [34] ∧
    parts.length = s.length ∧ ∀ p ∈ parts, (34 : UInt8) ∈ p → p = [92, 34] := by
  refine ⟨s.map psByte, by rw [printString, List.flatMap_def], by simp, ?_⟩
  have hd : ∀ n < 16, hexDig n ≠ 34 := by decide +kernel
  intro p hp hq
  rw [List.mem_map] at hp
  obtain ⟨b, _, rfl⟩ := hp
  have hb256 := b.toNat_lt
  unfold psByte at hq ⊢
  split
  · rename_i h1
    rw [if_pos h1] at hq
    split
    · rfl
    · rename_i h2
      rw [if_neg h2] at hq
      simp only [List.mem_singleton] at hq
      subst hq
      exact absurd rfl h2
  · rename_i h1
    rw [if_neg h1] at hq
    simp only [List.mem_cons, List.not_mem_nil, or_false] at hq
    rcases hq with h | h | h | h
    · cases h
    · cases h
    · exact absurd h.symm (hd _ (by omega))
    · exact absurd h.symm (hd _ (by omega))

theorem psByte_cases (c : UInt8) : (c = 34 ∧ psByte c = [92, 34]) ∨ psByte c = [c] ∨
    psByte c = [92, 120, hexDig (c.toNat / 16), hexDig (c.toNat % 16)] := by
  unfold psByte
  split
  · split
    · rename_i h; exact Or.inl ⟨UInt8.toNat_inj.mp h, rfl⟩
    · exact Or.inr (Or.inl rfl)
  · exact Or.inr (Or.inr rfl)

theorem psByte_inj {a b : UInt8} {r r' : List UInt8} (ha : a ≠ 92) (hb : b ≠ 92) (h : psByte a ++ r = psByte b ++ r') :
    a = b ∧ r = r' := by
  have hinj : ∀ m < 16, ∀ n < 16, hexDig m = hexDig n → m = n := by decide +kernel
  have ha256 := a.toNat_lt
  have hb256 := b.toNat_lt
  rcases psByte_cases a with ⟨ea, e⟩ | e | e <;> rcases psByte_cases b with ⟨eb, e'⟩ | e' | e' <;>
    rw [e, e'] at h <;> simp only [List.cons_append, List.nil_append, List.cons.injEq, true_and] at h
  · exact ⟨by rw [ea, eb], h⟩
  · exact absurd h.1.symm hb
  · exact absurd h.1 (by decide)
  · exact absurd h.1 ha
  · exact h
  · exact absurd h.1 ha
  · exact absurd h.1 (by decide)
  · exact absurd h.1.symm hb
  · have h1 := hinj _ (by omega) _ (by omega) h.1
    have h2 := hinj _ (by omega) _ (by omega) h.2.1
    exact ⟨UInt8.toNat_inj.mp (by omega), h.2.2⟩

theorem psByte_ne_nil (a : UInt8) : psByte a ≠ [] := by
  unfold psByte; split
  · split <;> simp
  · simp

/-- Octet sequences without a backslash can be told apart by their output. -/
theorem C97_injective_partial {s t : List UInt8} (hs : (92 : UInt8) ∉ s) (ht : (92 : UInt8) ∉ t) (h : printString s = printString t) : s = t := by
  simp only [printString, List.append_assoc] at h
  replace h := List.append_cancel_right (List.append_cancel_left h)
  induction s generalizing t with
  | nil =>
    cases t with
    | nil => rfl
    | cons b t => exact absurd (congrArg List.length h) (by have := List.length_pos_iff.mpr (psByte_ne_nil b); simp; omega)
  | cons a s ih =>
    cases t with
    | nil => simp [psByte_ne_nil] at h
    | cons b t =>
      simp only [List.flatMap_cons] at h
      simp only [List.mem_cons, not_or] at hs ht
      obtain ⟨rfl, h2⟩ := psByte_inj (fun e => hs.1 e.symm) (fun e => ht.1 e.symm) h
      rw [ih hs.2 ht.2 h2]

/-- A case of `C97_injective_partial`: an unprintable octet and a quotation mark are told apart. -/
example : printString [65, 34, 1] ≠ printString [65, 1, 34] := fun h => absurd (C97_injective_partial (by decide) (by decide) h) (by decide)

/-- The backslash itself is not escaped: every octet that is not printable has the same output as the four characters `\xNN`. -/
theorem C97_injective_violated (b : UInt8) (hb : b.toNat < 32 ∨ 126 < b.toNat) (pre post : List UInt8) :
    ∃ s, s.length = 4 ∧ printString (pre ++ [b] ++ post) = printString (pre ++ s ++ post) := by
  refine ⟨[92, 120, hexDig (b.toNat / 16), hexDig (b.toNat % 16)], rfl, ?_⟩
  have hd : ∀ n < 16, psByte (hexDig n) = [hexDig n] := by decide +kernel
  have hb256 := b.toNat_lt
  simp only [printString, List.flatMap_append, List.flatMap_cons, List.flatMap_nil, List.append_nil,
    hd _ (show b.toNat / 16 < 16 by omega), hd _ (show b.toNat % 16 < 16 by omega)]
  rw [show psByte b = _ from if_neg (by omega)]
  rfl

example : printString [65, 34, 1, 255] = ascii "\"A\\\"\\x01\\xff\"" := by decide +kernel

end Wdns
