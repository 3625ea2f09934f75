import Verif.Lemmas.CrcRun
import Mathlib.Tactic.Ring
import Mathlib.Tactic.LinearCombination
import Mathlib.Tactic.ComputeDegree
import Mathlib.Algebra.CharP.Two
import Mathlib.Algebra.Polynomial.Degree.Operations

/-!
# Lemmas: the shift register divides polynomials
-/

namespace Wdns
open Polynomial Spec

theorem bitPoly_append (a b : List Bool) : bitPoly (a ++ b) = X ^ b.length * bitPoly a + bitPoly b := by
  induction a with
  | nil => simp [bitPoly]
  | cons x a ih =>
    rw [List.cons_append, bitPoly, bitPoly, ih, List.length_append]
    cases x
    · simp
    · simp only [if_true]; ring

/-- A word as a polynomial, bit 0 being the coefficient of `X^31`. -/
noncomputable def regPoly (c : Nat) : (ZMod 2)[X] := bitPoly (crcRegBits c)

theorem bitPoly_xor (n : Nat) (f g : Nat → Bool) (l : List Nat) : bitPoly (l.map fun i => (f i ^^ g i)) = bitPoly (l.map f) + bitPoly (l.map g) := by
  induction l with
  | nil => simp [bitPoly]
  | cons a l ih =>
    simp only [List.map_cons, bitPoly, List.length_map]
    rw [ih]
    cases f a <;> cases g a <;> simp <;> ring_nf
    have : (2 : (ZMod 2)[X]) = 0 := CharTwo.two_eq_zero
    simp [this]

theorem regPoly_xor (x y : Nat) : regPoly (x ^^^ y) = regPoly x + regPoly y := by
  unfold regPoly crcRegBits
  rw [← bitPoly_xor 0]
  congr 1
  apply List.map_congr_left
  intro i _
  exact Nat.testBit_xor x y i

theorem castagnoli_eq : castagnoli = X ^ 32 + regPoly 0x82F63B78 := by
  have : crcRegBits 0x82F63B78 = [false, false, false, true, true, true, true, false, true, true, false, true, true, true, false, false,
    false, true, true, false, true, true, true, true, false, true, false, false, false, false, false, true] := by decide +kernel
  unfold regPoly castagnoli
  rw [this]
  simp [bitPoly]
  ring

theorem regPoly_shift {c : Nat} (h : c < 2 ^ 32) : X * regPoly c = regPoly (c >>> 1) + (if c % 2 = 1 then X ^ 32 else 0) := by
  have e1 : crcRegBits c = c.testBit 0 :: (List.range 31).map (c.testBit <| · + 1) := by
    unfold crcRegBits
    rw [List.range_succ_eq_map, List.map_cons, List.map_map]
    rfl
  have e2 : crcRegBits (c >>> 1) = (List.range 31).map (c.testBit <| · + 1) ++ [false] := by
    unfold crcRegBits
    rw [List.range_succ, List.map_append]
    have a1 : (List.range 31).map (c >>> 1).testBit = (List.range 31).map (c.testBit <| · + 1) := by
      apply List.map_congr_left
      intro i _
      rw [Nat.testBit_shiftRight, Nat.add_comm]
    have a2 : [31].map (c >>> 1).testBit = [false] := by
      simp only [List.map_cons, List.map_nil, Nat.testBit_shiftRight]
      rw [Nat.testBit_lt_two_pow (by simpa using h)]
    rw [a1, a2]
  unfold regPoly
  rw [e1, e2, bitPoly_append, bitPoly]
  simp only [List.length_map, List.length_range, List.length_cons, List.length_nil, Nat.testBit_zero, bitPoly]
  by_cases h1 : c % 2 = 1 <;> simp [h1] <;> ring

theorem dvd_step {c : Nat} (h : c < 2 ^ 32) : castagnoli ∣ regPoly (crcStep c) - X * regPoly c := by
  rw [regPoly_shift h]
  unfold crcStep
  have h2 : (2 : (ZMod 2)[X]) = 0 := CharTwo.two_eq_zero
  by_cases h1 : c % 2 = 1
  · rw [if_pos h1, if_pos h1, regPoly_xor]
    refine ⟨1, ?_⟩
    rw [castagnoli_eq]
    linear_combination (-X ^ 32) * h2
  · rw [if_neg h1, if_neg h1, Nat.xor_zero]
    simp

theorem dvd_steps (n : Nat) {c : Nat} (h : c < 2 ^ 32) : castagnoli ∣ regPoly (crcSteps n c) - X ^ n * regPoly c := by
  induction n generalizing c with
  | zero => simp [crcSteps]
  | succ n ih =>
    rw [crcSteps]
    have h1 := ih (crcStep_lt h)
    have h2 := (dvd_step h).mul_left (X ^ n)
    have := h1.add h2
    convert this using 1
    ring

theorem regPoly_octet (b : UInt8) : regPoly b.toNat = X ^ 24 * bitPoly (octetBits b) := by
  have e : crcRegBits b.toNat = octetBits b ++ List.replicate 24 false := by
    unfold crcRegBits octetBits
    apply List.ext_getElem
    · simp
    · intro i h1 h2
      simp only [List.length_map, List.length_range] at h1
      rw [List.getElem_append]
      split
      · simp
      · rename_i h3
        simp only [List.length_map, List.length_range, not_lt] at h3
        simp only [List.getElem_map, List.getElem_range, List.getElem_replicate]
        apply Nat.testBit_lt_two_pow
        exact Nat.lt_of_lt_of_le b.toNat_lt (Nat.pow_le_pow_right (by decide : 0 < 2) h3)
  have z : ∀ n, bitPoly (List.replicate n false) = 0 := by
    intro n
    induction n with
    | zero => rfl
    | succ n ih => simp [List.replicate_succ, bitPoly, ih]
  unfold regPoly
  rw [e, bitPoly_append, z]
  simp

theorem octetBits_length (b : UInt8) : (octetBits b).length = 8 := by simp [octetBits]

theorem crcBits_length (bs : List UInt8) : (crcBits bs).length = 8 * bs.length := by
  induction bs with
  | nil => rfl
  | cons b bs ih =>
    have : crcBits (b :: bs) = octetBits b ++ crcBits bs := rfl
    rw [this, List.length_append, octetBits_length, ih, List.length_cons]; omega

theorem dvd_reg (bs : List UInt8) {c : Nat} (h : c < 2 ^ 32) :
    castagnoli ∣ regPoly (crcReg c bs) - (X ^ 32 * bitPoly (crcBits bs) + X ^ (crcBits bs).length * regPoly c) := by
  induction bs generalizing c with
  | nil => simp [crcReg_nil, crcBits, bitPoly]
  | cons b bs ih =>
    have e : crcBits (b :: bs) = octetBits b ++ crcBits bs := rfl
    have hx : c ^^^ b.toNat < 2 ^ 32 := Nat.xor_lt_two_pow h (by have := b.toNat_lt; omega)
    have h1 := ih (step8_lt h b)
    have h2 := (dvd_steps 8 hx).mul_left (X ^ (crcBits bs).length)
    rw [crcReg_cons, e, bitPoly_append, List.length_append, octetBits_length]
    rw [regPoly_xor, regPoly_octet] at h2
    have := h1.add h2
    convert this using 1
    ring

theorem bitPoly_degree (l : List Bool) : (bitPoly l).degree < (l.length : WithBot ℕ) := by
  induction l with
  | nil => simp [bitPoly]
  | cons b l ih =>
    rw [bitPoly, List.length_cons]
    apply lt_of_le_of_lt (degree_add_le _ _)
    rw [max_lt_iff]
    constructor
    · cases b
      · simp
      · rw [if_pos rfl, degree_X_pow]; exact_mod_cast Nat.lt_succ_self _
    · exact lt_trans ih (by exact_mod_cast Nat.lt_succ_self _)

theorem castagnoli_degree : castagnoli.degree = 32 := by
  unfold castagnoli
  compute_degree!

theorem bitPoly_inj : ∀ (a b : List Bool), a.length = b.length → bitPoly a = bitPoly b → a = b
  | [], [], _, _ => rfl
  | x :: a, y :: b, hl, h => by
    have hl2 : a.length = b.length := by simpa using hl
    have h' := congrArg (fun p => Polynomial.coeff p a.length) h
    have hc : ∀ l : List Bool, l.length = a.length → (bitPoly l).coeff a.length = 0 := fun l e =>
      coeff_eq_zero_of_degree_lt (by have := bitPoly_degree l; rwa [e] at this)
    simp only [bitPoly, coeff_add, hc a rfl, hc b hl2.symm, add_zero, ← hl2] at h'
    have hxy : x = y := by
      cases x <;> cases y <;> simp at h' ⊢
    subst hxy
    simp only [bitPoly, ← hl2] at h
    rw [bitPoly_inj a b hl2 (add_left_cancel h)]

end Wdns
