import Verif.Model.Crc
import Verif.Spec.Crc
import Mathlib.Logic.Function.Iterate

/-!
# Lemmas: the shift register and the tables
-/

namespace Wdns
open Outcome

/-- One step of the shift register without input. -/
def crcStep (x : Nat) : Nat := (x >>> 1) ^^^ (if x % 2 = 1 then 0x82F63B78 else 0)

/-- `n` steps. -/
def crcSteps : Nat → Nat → Nat
  | 0, x => x
  | n + 1, x => crcSteps n (crcStep x)

theorem crcSteps_add (m n x : Nat) : crcSteps (m + n) x = crcSteps n (crcSteps m x) := by
  induction m generalizing x with
  | zero => simp [crcSteps]
  | succ m ih => rw [Nat.succ_add]; exact ih _

theorem crcStep_xor (x y : Nat) : crcStep (x ^^^ y) = crcStep x ^^^ crcStep y := by
  have hm : (x ^^^ y) % 2 = (x % 2) ^^^ (y % 2) := by simpa using Nat.xor_mod_two_pow (a := x) (b := y) (n := 1)
  unfold crcStep
  rw [Nat.shiftRight_xor_distrib, hm]
  rcases Nat.mod_two_eq_zero_or_one x with h1 | h1 <;> rcases Nat.mod_two_eq_zero_or_one y with h2 | h2 <;> rw [h1, h2] <;> simp
  · ac_rfl
  · ac_rfl
  · rw [show x >>> 1 ^^^ 2197175160 ^^^ (y >>> 1 ^^^ 2197175160) = x >>> 1 ^^^ y >>> 1 ^^^ (2197175160 ^^^ 2197175160) from by ac_rfl,
      Nat.xor_self, Nat.xor_zero]

theorem crcSteps_xor (n x y : Nat) : crcSteps n (x ^^^ y) = crcSteps n x ^^^ crcSteps n y := by
  induction n generalizing x y with
  | zero => rfl
  | succ n ih => simp only [crcSteps]; rw [crcStep_xor, ih]

theorem crcStep_even (v : Nat) : crcStep (v <<< 1) = v := by
  unfold crcStep
  rw [Nat.shiftLeft_eq]
  have : v * 2 ^ 1 % 2 = 0 := by omega
  rw [this]
  simp [Nat.shiftRight_eq_div_pow]

theorem crcSteps_shift (n v : Nat) : crcSteps n (v <<< n) = v := by
  induction n generalizing v with
  | zero => rfl
  | succ n ih =>
    rw [crcSteps, show v <<< (n + 1) = (v <<< n) <<< 1 from by rw [← Nat.shiftLeft_add], crcStep_even, ih]

theorem crcSteps_zero (n : Nat) : crcSteps n 0 = 0 := by
  have := crcSteps_shift n 0
  simpa using this

theorem crcStep_lt {x : Nat} (h : x < 2 ^ 32) : crcStep x < 2 ^ 32 := by
  unfold crcStep
  apply Nat.xor_lt_two_pow
  · rw [Nat.shiftRight_eq_div_pow]; omega
  · split <;> decide

theorem crcSteps_lt {n x : Nat} (h : x < 2 ^ 32) : crcSteps n x < 2 ^ 32 := by
  induction n generalizing x with
  | zero => exact h
  | succ n ih => exact ih (crcStep_lt h)

theorem insn_eq (n crc value : Nat) (h : value < 2 ^ n) : crcInsn n crc value = crcSteps n (crc ^^^ value) := by
  induction n generalizing crc value with
  | zero => have : value = 0 := by omega
            subst this; simp [crcInsn, crcSteps]
  | succ n ih =>
    rw [crcInsn, crcSteps, ih _ _ (by rw [Nat.shiftRight_eq_div_pow]; omega)]
    congr 1
    rw [crcStep, Nat.shiftRight_xor_distrib]
    ac_rfl

/-- The octets as a little-endian number. -/
def leVal : List UInt8 → Nat
  | [] => 0
  | b :: bs => b.toNat ^^^ (leVal bs <<< 8)

/-- The register after octets. -/
def crcReg (c : Nat) (bs : List UInt8) : Nat := crcSteps (8 * bs.length) (c ^^^ leVal bs)

theorem crcReg_nil (c : Nat) : crcReg c [] = c := by simp [crcReg, leVal, crcSteps]

theorem crcReg_cons (c : Nat) (b : UInt8) (bs : List UInt8) : crcReg c (b :: bs) = crcReg (crcSteps 8 (c ^^^ b.toNat)) bs := by
  unfold crcReg
  rw [List.length_cons, show 8 * (bs.length + 1) = 8 + 8 * bs.length from by omega, crcSteps_add, leVal, ← Nat.xor_assoc, crcSteps_xor 8,
    crcSteps_shift]

theorem crcReg_append (c : Nat) (as bs : List UInt8) : crcReg c (as ++ bs) = crcReg (crcReg c as) bs := by
  induction as generalizing c with
  | nil => rw [crcReg_nil]; rfl
  | cons a as ih => rw [List.cons_append, crcReg_cons, crcReg_cons, ih]

theorem crcReg_lt {c : Nat} (h : c < 2 ^ 32) (bs : List UInt8) : crcReg c bs < 2 ^ 32 := by
  induction bs generalizing c with
  | nil => rw [crcReg_nil]; exact h
  | cons b bs ih =>
    rw [crcReg_cons]
    exact ih (crcSteps_lt (Nat.xor_lt_two_pow h (by have := b.toNat_lt; omega)))

/-! ## The tables -/

set_option maxRecDepth 20000 in
theorem tablesLe : crcTablesLe = (List.range 8).map fun k => (List.range 256).map fun i => crcSteps (8 * (k + 1)) i := by decide +kernel

theorem tableLe (k i : Nat) (hk : k < 8) (hi : i < 256) : crcTable false k i = ok (crcSteps (8 * (k + 1)) i) := by
  unfold crcTable
  simp [tablesLe, hk, hi]

/-! ## Octets of a word -/

theorem shl_xor {a b i : Nat} (h : b < 2 ^ i) : (a <<< i) ^^^ b = a * 2 ^ i + b := by
  rw [← Nat.shiftLeft_eq, Nat.shiftLeft_add_eq_or_of_lt h]
  apply Nat.eq_of_testBit_eq
  intro j
  rw [Nat.testBit_xor, Nat.testBit_or, Nat.testBit_shiftLeft]
  by_cases hj : j ≥ i
  · have : b.testBit j = false := Nat.testBit_lt_two_pow (Nat.lt_of_lt_of_le h (Nat.pow_le_pow_right (by decide) hj))
    simp [this]
  · simp [hj]

theorem and_255 (x : Nat) : x &&& 0xFF = x % 256 := Nat.and_two_pow_sub_one_eq_mod x 8

theorem split8 (x : Nat) : x = ((x >>> 8) <<< 8) ^^^ (x % 256) := by
  rw [shl_xor (by omega), Nat.shiftRight_eq_div_pow]
  omega

/-- Eight octets by the tables. -/
theorem slices_word (n x : Nat) (h : x < 2 ^ 32) : crcSteps (n + 32) x = crcSteps (n + 32) (x % 256) ^^^ crcSteps (n + 24) ((x >>> 8) % 256) ^^^
    crcSteps (n + 16) ((x >>> 16) % 256) ^^^ crcSteps (n + 8) (x >>> 24) := by
  have e1 : ∀ m y, crcSteps (8 + m) y = crcSteps (8 + m) (y % 256) ^^^ crcSteps m (y >>> 8) := by
    intro m y
    conv_lhs => rw [split8 y]
    rw [crcSteps_xor, crcSteps_add 8 m (_ <<< 8), crcSteps_shift, Nat.xor_comm]
  rw [show n + 32 = 8 + (n + 24) from by omega, e1, show n + 24 = 8 + (n + 16) from by omega, e1 _ (x >>> 8),
    show n + 16 = 8 + (n + 8) from by omega, e1 _ (x >>> 8 >>> 8), show n + 8 = 8 + n from by omega,
    e1 n (x >>> 8 >>> 8 >>> 8)]
  simp only [← Nat.shiftRight_add]
  have : x >>> (8 + 8 + 8 + 8) = 0 := by rw [Nat.shiftRight_eq_div_pow]; omega
  have h2 : x >>> (8 + 8 + 8) % 256 = x >>> 24 := by
    rw [show 8 + 8 + 8 = 24 from rfl, Nat.shiftRight_eq_div_pow]; omega
  rw [this, crcSteps_zero, Nat.xor_zero, h2]
  simp only [Nat.xor_assoc]

/-! ## Byte reversal -/

/-- The octets of a 32-bit word in reverse order. -/
def rev32 (x : Nat) : Nat := ((x % 256) <<< 24) ^^^ (((x >>> 8) % 256) <<< 16) ^^^ (((x >>> 16) % 256) <<< 8) ^^^ ((x >>> 24) % 256)

theorem rev32_xor (x y : Nat) : rev32 (x ^^^ y) = rev32 x ^^^ rev32 y := by
  have hm : ∀ a b : Nat, (a ^^^ b) % 256 = (a % 256) ^^^ (b % 256) := fun a b => by
    simpa using Nat.xor_mod_two_pow (a := a) (b := b) (n := 8)
  have hs : ∀ k : Nat, ((x ^^^ y) >>> k) % 256 = ((x >>> k) % 256) ^^^ ((y >>> k) % 256) := fun k => by
    rw [Nat.shiftRight_xor_distrib, hm]
  have hl : ∀ k a b : Nat, (a ^^^ b) <<< k = (a <<< k) ^^^ (b <<< k) := fun k a b => Nat.shiftLeft_xor_distrib
  unfold rev32
  rw [hm, hs 8, hs 16, hs 24, hl 24, hl 16, hl 8]
  generalize (x % 256) <<< 24 = a0, ((x >>> 8) % 256) <<< 16 = a1, ((x >>> 16) % 256) <<< 8 = a2, (x >>> 24) % 256 = a3,
    (y % 256) <<< 24 = b0, ((y >>> 8) % 256) <<< 16 = b1, ((y >>> 16) % 256) <<< 8 = b2, (y >>> 24) % 256 = b3
  ac_rfl

theorem rev32_eq (x : Nat) : rev32 x = x % 256 * 2 ^ 24 + x / 2 ^ 8 % 256 * 2 ^ 16 + x / 2 ^ 16 % 256 * 2 ^ 8 + x / 2 ^ 24 % 256 := by
  unfold rev32
  have h1 : ((x >>> 16) % 256) <<< 8 ^^^ (x >>> 24) % 256 = (x >>> 16) % 256 * 2 ^ 8 + (x >>> 24) % 256 := shl_xor (by omega)
  have h2 : ((x >>> 8) % 256) <<< 16 ^^^ ((x >>> 16) % 256 * 2 ^ 8 + (x >>> 24) % 256) =
      (x >>> 8) % 256 * 2 ^ 16 + ((x >>> 16) % 256 * 2 ^ 8 + (x >>> 24) % 256) := shl_xor (by omega)
  have h3 : (x % 256) <<< 24 ^^^ ((x >>> 8) % 256 * 2 ^ 16 + ((x >>> 16) % 256 * 2 ^ 8 + (x >>> 24) % 256)) =
      x % 256 * 2 ^ 24 + ((x >>> 8) % 256 * 2 ^ 16 + ((x >>> 16) % 256 * 2 ^ 8 + (x >>> 24) % 256)) := shl_xor (by omega)
  rw [Nat.xor_assoc, Nat.xor_assoc, h1, h2, h3]
  simp only [Nat.shiftRight_eq_div_pow]
  omega

theorem and_mask (y k : Nat) : y &&& (255 <<< k) = ((y >>> k) % 256) <<< k := by
  rw [← and_255]
  apply Nat.eq_of_testBit_eq
  intro j
  simp only [Nat.testBit_and, Nat.testBit_shiftLeft, Nat.testBit_shiftRight]
  by_cases hj : j ≥ k
  · rw [show k + (j - k) = j from by omega]; simp [hj]
  · simp [hj]

theorem or_xor_of_lt {a b i : Nat} (h : b < 2 ^ i) : (a <<< i) ||| b = a * 2 ^ i + b := by
  rw [← Nat.shiftLeft_add_eq_or_of_lt h, Nat.shiftLeft_eq]

theorem crcSwap_eq (x : Nat) : crcSwap x = rev32 x := by
  have e1 : (x <<< 24) % 2 ^ 32 &&& 0xFF000000 = (x % 256) <<< 24 := by
    rw [show (0xFF000000 : Nat) = 255 <<< 24 from rfl, and_mask, Nat.shiftLeft_eq x, Nat.shiftRight_eq_div_pow]
    congr 1; omega
  have e2 : (x <<< 8) % 2 ^ 32 &&& 0x00FF0000 = (x / 2 ^ 8 % 256) <<< 16 := by
    rw [show (0x00FF0000 : Nat) = 255 <<< 16 from rfl, and_mask, Nat.shiftLeft_eq x, Nat.shiftRight_eq_div_pow]
    congr 1; omega
  have e3 : (x >>> 8) &&& 0x0000FF00 = (x / 2 ^ 16 % 256) <<< 8 := by
    rw [show (0x0000FF00 : Nat) = 255 <<< 8 from rfl, and_mask, ← Nat.shiftRight_add, Nat.shiftRight_eq_div_pow]
  have e4 : (x >>> 24) &&& 0x000000FF = x / 2 ^ 24 % 256 := by rw [and_255, Nat.shiftRight_eq_div_pow]
  unfold crcSwap
  rw [e1, e2, e3, e4, rev32_eq, Nat.or_assoc, Nat.or_assoc, or_xor_of_lt (i := 8) (by omega), or_xor_of_lt (i := 16) (by omega),
    or_xor_of_lt (i := 24) (by omega)]
  omega

set_option maxRecDepth 20000 in
theorem tablesBe : crcTablesBe = (List.range 8).map fun k => (List.range 256).map fun i => rev32 (crcSteps (8 * (k + 1)) i) := by decide +kernel

theorem tableBe (k i : Nat) (hk : k < 8) (hi : i < 256) : crcTable true k i = ok (rev32 (crcSteps (8 * (k + 1)) i)) := by
  unfold crcTable
  simp [tablesBe, hk, hi]

end Wdns
