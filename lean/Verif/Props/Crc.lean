import Verif.Lemmas.CrcPoly
import Mathlib.Algebra.Field.ZMod
import Mathlib.Algebra.Polynomial.Eval.Degree

/-!
# C84: CRC-32C
-/

namespace Wdns
open Outcome Spec Polynomial

theorem not_bits {c : Nat} : (crcRegBits (c ^^^ 0xffffffff)).map (!·) = crcRegBits c := by
  unfold crcRegBits
  rw [List.map_map]
  apply List.map_congr_left
  intro i hi
  rw [List.mem_range] at hi
  have : Nat.testBit 0xffffffff i = true := by
    rw [show (0xffffffff : Nat) = 2 ^ 32 - 1 from rfl, Nat.testBit_two_pow_sub_one]; simpa using hi
  simp [Nat.testBit_xor, this]

theorem reg_isCrc (bs : List UInt8) : IsCrc32c bs (crcReg 0xffffffff bs ^^^ 0xffffffff) := by
  refine ⟨Nat.xor_lt_two_pow (crcReg_lt (by decide) bs) (by decide), ?_⟩
  rw [not_bits]
  have h := dvd_reg bs (by decide : 0xffffffff < 2 ^ 32)
  have e : regPoly 0xffffffff = bitPoly (List.replicate 32 true) := by
    unfold regPoly
    congr 1
  rw [e] at h
  exact h

/-- **C84.** The table-driven function, for every chunk, every length and every address of the chunk, on machines of either byte order, reads
only the chunk and returns its CRC-32C. -/
theorem C84_slicing (big : Bool) (base : Nat) (mem : List UInt8) (len : Nat) (h : len ≤ mem.length) :
    ∃ c, crcSlicing big base mem len = ok c ∧ IsCrc32c (mem.take len) c :=
  ⟨_, crcSlicing_eq big base mem len h, reg_isCrc _⟩

/-- **C84.** So does the function that uses the processor's instructions. -/
theorem C84_sse42 (mem : List UInt8) (len : Nat) (h : len ≤ mem.length) : ∃ c, crcSse42 mem len = ok c ∧ IsCrc32c (mem.take len) c :=
  ⟨_, crcSse42_eq mem len h, reg_isCrc _⟩

/-- A case of `C84_sse42`: five octets of six. -/
example : ∃ c, crcSse42 [0x68, 0x65, 0x6c, 0x6c, 0x6f, 0x20] 5 = ok c ∧ IsCrc32c [0x68, 0x65, 0x6c, 0x6c, 0x6f] c :=
  C84_sse42 [0x68, 0x65, 0x6c, 0x6c, 0x6f, 0x20] 5 (by decide)

/-- **C84.** The specification leaves no choice. -/
theorem C84_unique (bs : List UInt8) (c d : Nat) (hc : IsCrc32c bs c) (hd : IsCrc32c bs d) : c = d := by
  have h := hc.2.sub hd.2
  rw [sub_sub_sub_cancel_right] at h
  have hdeg : ∀ x : Nat, (bitPoly ((crcRegBits x).map (!·))).degree < 32 := fun x => by
    have := bitPoly_degree ((crcRegBits x).map (!·))
    simpa [crcRegBits] using this
  have h0 := eq_zero_of_dvd_of_degree_lt h (by
    rw [castagnoli_degree]
    exact lt_of_le_of_lt (degree_sub_le _ _) (max_lt (hdeg c) (hdeg d)))
  have he := bitPoly_inj _ _ (by simp [crcRegBits]) (sub_eq_zero.mp h0)
  apply Nat.eq_of_testBit_eq
  intro i
  by_cases hi : i < 32
  · have := congrArg (·[i]?) he
    simpa [crcRegBits, hi] using this
  · have hlt : ∀ x < 2 ^ 32, x.testBit i = false := fun x hx =>
      Nat.testBit_lt_two_pow (Nat.lt_of_lt_of_le hx (Nat.pow_le_pow_right (by decide) (by omega)))
    rw [hlt c hc.1, hlt d hd.1]

/-- A case of `C84_unique`: whatever has the CRC property for these five octets is the number computed by the code. -/
example (c : Nat) (h : IsCrc32c [0x68, 0x65, 0x6c, 0x6c, 0x6f] c) : crcSse42 [0x68, 0x65, 0x6c, 0x6c, 0x6f] 5 = ok c := by
  obtain ⟨d, h1, h2⟩ := C84_sse42 [0x68, 0x65, 0x6c, 0x6c, 0x6f] 5 (by decide)
  rw [h1, C84_unique _ d c h2 h]

/-- **C84.** `my_crc32c` gives the same checksum whatever the processor supports, whatever its byte order and wherever the octets are. -/
theorem C84_same (sse42 sse42' big big' : Bool) (base base' : Nat) (mem mem' : List UInt8) (len : Nat) (h : len ≤ mem.length)
    (h' : len ≤ mem'.length) (he : mem.take len = mem'.take len) :
    crc32cAny sse42 big base mem len = crc32cAny sse42' big' base' mem' len ∧ Returns (crc32cAny sse42 big base mem len) := by
  have e : ∀ (s b : Bool) (a : Nat) (m : List UInt8), len ≤ m.length → crc32cAny s b a m len = ok (crcReg 0xffffffff (m.take len) ^^^ 0xffffffff) := by
    intro s b a m hm
    unfold crc32cAny
    split
    · exact crcSse42_eq m len hm
    · exact crcSlicing_eq b a m len hm
  rw [e _ _ _ _ h, e _ _ _ _ h', he]
  exact ⟨rfl, by simp [Returns]⟩

/-- A case of `C84_same`: two implementations, two alignments, and different octets behind the buffer. -/
example : crc32cAny true false 3 [0x68, 0x65, 0x6c, 0x6c, 0x6f, 0x20] 5 = crc32cAny false true 0 [0x68, 0x65, 0x6c, 0x6c, 0x6f] 5 :=
  (C84_same true false false true 3 0 [0x68, 0x65, 0x6c, 0x6c, 0x6f, 0x20] [0x68, 0x65, 0x6c, 0x6c, 0x6f] 5 (by decide) (by decide) (by decide)).1

/-! ## Detected errors -/

theorem step_inj {x y : Nat} (hx : x < 2 ^ 32) (hy : y < 2 ^ 32) (h : crcStep x = crcStep y) : x = y := by
  have hb : ∀ z < 2 ^ 32, (crcStep z).testBit 31 = decide (z % 2 = 1) := by
    intro z hz
    unfold crcStep
    rw [Nat.testBit_xor, Nat.testBit_lt_two_pow (by rw [Nat.shiftRight_eq_div_pow]; omega)]
    by_cases h1 : z % 2 = 1
    · rw [if_pos h1]; simp [h1]; decide
    · rw [if_neg h1]; simp [h1]
  have h1 := hb x hx
  rw [h, hb y hy] at h1
  have h2 : y % 2 = x % 2 := by
    have := decide_eq_decide.mp h1
    omega
  unfold crcStep at h
  rw [h2] at h
  have h3 : x >>> 1 = y >>> 1 := by
    generalize (if x % 2 = 1 then 2197175160 else 0) = k at h
    have := congrArg (· ^^^ k) h
    simpa [Nat.xor_assoc] using this
  simp only [Nat.shiftRight_eq_div_pow] at h3
  omega

theorem steps_inj (n : Nat) {x y : Nat} (hx : x < 2 ^ 32) (hy : y < 2 ^ 32) (h : crcSteps n x = crcSteps n y) : x = y := by
  induction n generalizing x y with
  | zero => exact h
  | succ n ih => exact step_inj hx hy (ih (crcStep_lt hx) (crcStep_lt hy) h)

/-- The bits as a number, the first one lowest. -/
def bitVal : List Bool → Nat
  | [] => 0
  | b :: l => b.toNat ^^^ (bitVal l <<< 1)

/-- The register after bits. -/
def bitReg (c : Nat) (l : List Bool) : Nat := crcSteps l.length (c ^^^ bitVal l)

theorem bitReg_append (c : Nat) (k l : List Bool) : bitReg c (k ++ l) = bitReg (bitReg c k) l := by
  induction k generalizing c with
  | nil => simp [bitReg, bitVal, crcSteps]
  | cons b k ih =>
    have e : ∀ (c : Nat) (l : List Bool), bitReg c (b :: l) = bitReg (crcStep (c ^^^ b.toNat)) l := by
      intro c l
      unfold bitReg
      rw [List.length_cons, Nat.add_comm, crcSteps_add, bitVal, ← Nat.xor_assoc]
      show crcSteps l.length (crcStep _) = _
      rw [crcStep_xor, crcStep_even]
    rw [List.cons_append, e, e, ih]

theorem bitVal_octet (b : UInt8) : bitVal (octetBits b) = b.toNat := by
  have : ∀ n < 256, bitVal (octetBits (UInt8.ofNat n)) = (UInt8.ofNat n).toNat := by decide +kernel
  have h := this b.toNat b.toNat_lt
  simpa using h

theorem crcReg_bits (c : Nat) (bs : List UInt8) : crcReg c bs = bitReg c (crcBits bs) := by
  induction bs generalizing c with
  | nil => simp [crcReg_nil, crcBits, bitReg, bitVal, crcSteps]
  | cons b bs ih =>
    have e : crcBits (b :: bs) = octetBits b ++ crcBits bs := rfl
    have e2 : bitReg c (octetBits b) = crcSteps 8 (c ^^^ b.toNat) := by unfold bitReg; rw [bitVal_octet, octetBits_length]
    rw [e, bitReg_append, crcReg_cons, ih, e2]

theorem bitVal_lt (l : List Bool) : bitVal l < 2 ^ l.length := by
  induction l with
  | nil => simp [bitVal]
  | cons b l ih =>
    have hb : b.toNat < 2 ^ 1 := by cases b <;> decide
    rw [bitVal, Nat.xor_comm, shl_xor hb, List.length_cons, Nat.pow_succ]
    omega

theorem bitVal_inj : ∀ (k l : List Bool), k.length = l.length → bitVal k = bitVal l → k = l
  | [], [], _, _ => rfl
  | a :: k, b :: l, hl, h => by
    have ha : a.toNat < 2 ^ 1 := by cases a <;> decide
    have hb : b.toNat < 2 ^ 1 := by cases b <;> decide
    rw [bitVal, bitVal, Nat.xor_comm, shl_xor ha, Nat.xor_comm b.toNat, shl_xor hb] at h
    have h1 : bitVal k = bitVal l := by omega
    have h2 : a.toNat = b.toNat := by omega
    have h3 : a = b := by cases a <;> cases b <;> simp at h2 ⊢
    rw [bitVal_inj k l (by simpa using hl) h1, h3]

theorem bitReg_lt {c : Nat} (h : c < 2 ^ 32) (l : List Bool) : bitReg c l < 2 ^ 32 := by
  induction l generalizing c with
  | nil => simpa [bitReg, bitVal, crcSteps] using h
  | cons b l ih =>
    rw [show b :: l = [b] ++ l from rfl, bitReg_append]
    apply ih
    unfold bitReg
    apply crcSteps_lt
    apply Nat.xor_lt_two_pow h
    cases b <;> decide

theorem bitReg_inj (l : List Bool) {c d : Nat} (hc : c < 2 ^ 32) (hd : d < 2 ^ 32) (h : bitReg c l = bitReg d l) : c = d := by
  induction l generalizing c d with
  | nil => simpa [bitReg, bitVal, crcSteps] using h
  | cons b l ih =>
    rw [show b :: l = [b] ++ l from rfl, bitReg_append, bitReg_append] at h
    have h1 := ih (bitReg_lt hc _) (bitReg_lt hd _) h
    have hb : bitVal [b] < 2 ^ 32 := by cases b <;> decide
    have h2 := steps_inj _ (Nat.xor_lt_two_pow hc hb) (Nat.xor_lt_two_pow hd hb) h1
    have := congrArg (· ^^^ bitVal [b]) h2
    simpa [Nat.xor_assoc] using this

theorem crcBits_inj : ∀ (a b : List UInt8), crcBits a = crcBits b → a = b
  | [], [], _ => rfl
  | [], y :: b, h => by have := congrArg List.length h; rw [crcBits_length, crcBits_length] at this; simp at this
  | x :: a, [], h => by have := congrArg List.length h; rw [crcBits_length, crcBits_length] at this; simp at this
  | x :: a, y :: b, h => by
    have e : ∀ (z : UInt8) (l : List UInt8), crcBits (z :: l) = octetBits z ++ crcBits l := fun _ _ => rfl
    rw [e, e] at h
    obtain ⟨h1, h2⟩ := List.append_inj h (by rw [octetBits_length, octetBits_length])
    have := congrArg bitVal h1
    rw [bitVal_octet, bitVal_octet] at this
    rw [crcBits_inj a b h2, UInt8.toNat_inj.mp this]

/-- **C84.** Every error burst of at most 32 bits is detected: if two messages differ only within 32 consecutive bits and have the same checksum they
are the same. -/
theorem C84_burst (a b : List UInt8) (pre w w' post : List Bool) (ha : crcBits a = pre ++ w ++ post) (hb : crcBits b = pre ++ w' ++ post)
    (hw : w.length ≤ 32) (hl : w.length = w'.length) (c : Nat) (hca : IsCrc32c a c) (hcb : IsCrc32c b c) : a = b := by
  have h1 := C84_unique a _ _ (reg_isCrc a) hca
  have h2 := C84_unique b _ _ (reg_isCrc b) hcb
  have h3 : crcReg 0xffffffff a = crcReg 0xffffffff b := by
    have := congrArg (· ^^^ 0xffffffff) (h1.trans h2.symm)
    simpa [Nat.xor_assoc] using this
  rw [crcReg_bits, crcReg_bits, ha, hb, bitReg_append, bitReg_append, bitReg_append, bitReg_append] at h3
  have hp := bitReg_lt (by decide : 0xffffffff < 2 ^ 32) pre
  have h4 := bitReg_inj post (bitReg_lt hp w) (bitReg_lt hp w') h3
  have hlt : ∀ v : List Bool, v.length ≤ 32 → bitVal v < 2 ^ 32 := fun v hv =>
    Nat.lt_of_lt_of_le (bitVal_lt v) (Nat.pow_le_pow_right (by decide) hv)
  unfold bitReg at h4
  rw [← hl] at h4
  have h5 := steps_inj _ (Nat.xor_lt_two_pow hp (hlt w hw)) (Nat.xor_lt_two_pow hp (hlt w' (by omega))) h4
  have h6 : bitVal w = bitVal w' := by
    have := congrArg (crcSteps pre.length (0xffffffff ^^^ bitVal pre) ^^^ ·) h5
    simpa [← Nat.xor_assoc, bitReg] using this
  apply crcBits_inj
  rw [ha, hb, bitVal_inj w w' hl h6]

/-- A case of `C84_burst`: two messages that differ in one octet have different CRCs. -/
example (c : Nat) (h : IsCrc32c [1, 2, 3] c) (h' : IsCrc32c [1, 7, 3] c) : False := by
  have := C84_burst [1, 2, 3] [1, 7, 3] (crcBits [1]) (crcBits [2]) (crcBits [7]) (crcBits [3]) (by decide) (by decide) (by decide) (by decide) c h h'
  revert this; decide

theorem eval_bitPoly (l : List Bool) : (bitPoly l).eval 1 = ((l.count true : Nat) : ZMod 2) := by
  induction l with
  | nil => simp [bitPoly]
  | cons b l ih => cases b <;> simp [bitPoly, ih, add_comm]

/-- **C84.** Every error that changes an odd number of bits is detected: messages of equal length and equal checksum have the same parity. -/
theorem C84_parity (a b : List UInt8) (hl : a.length = b.length) (c : Nat) (hca : IsCrc32c a c) (hcb : IsCrc32c b c) :
    (crcBits a).count true % 2 = (crcBits b).count true % 2 := by
  have h := hca.2.sub hcb.2
  rw [sub_sub_sub_cancel_left, crcBits_length, crcBits_length, hl] at h
  obtain ⟨q, hq⟩ := h
  have h1 := congrArg (Polynomial.eval 1) hq
  have h0 : castagnoli.eval 1 = 0 := by
    unfold castagnoli
    simp
    decide
  simp only [eval_sub, eval_add, eval_mul, eval_pow, eval_X, one_pow, one_mul, h0, zero_mul, eval_bitPoly] at h1
  have h2 : (((crcBits b).count true : Nat) : ZMod 2) = (((crcBits a).count true : Nat) : ZMod 2) := by
    linear_combination h1
  rw [ZMod.natCast_eq_natCast_iff'] at h2
  exact h2.symm

/-! ## Examples: test vectors of libmy/crc32c_test.c -/

example : crcSlicing false 0 [0x61] 1 = ok 0xc1d04330 := by decide +kernel
example : crcSlicing true 3 ([0x68, 0x65, 0x6c, 0x6c, 0x6f, 0x20, 0x77, 0x6f, 0x72, 0x6c, 0x64] ++ [1, 2]) 11 = ok 0xc99465aa := by decide +kernel
example : crcSlicing false 1 [0x68, 0x65, 0x6c, 0x6c, 0x6f, 0x20, 0x77, 0x6f, 0x72, 0x6c, 0x64] 11 = ok 0xc99465aa := by decide +kernel
example : crcSse42 [0x68, 0x65, 0x6c, 0x6c, 0x6f, 0x20, 0x77, 0x6f, 0x72, 0x6c, 0x64] 11 = ok 0xc99465aa := by decide +kernel
example : crcSse42 [0x68, 0x65, 0x6c, 0x6c, 0x6f, 0x20] 6 = ok 0x7e627e58 := by decide +kernel
example : IsCrc32c [0x61] 0xc1d04330 := by
  obtain ⟨c, h1, h2⟩ := C84_slicing false 0 [0x61] 1 (by decide)
  have : crcSlicing false 0 [0x61] 1 = ok 0xc1d04330 := by decide +kernel
  rw [this, ok.injEq] at h1
  rwa [← h1] at h2

end Wdns
