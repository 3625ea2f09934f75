import Verif.Model.Lookup3
import Verif.Spec.Lookup3
import Verif.Lemmas.CrcRun

/-! # Lemmas about libmy/lookup3.c -/

namespace Wdns
open Outcome

theorem lkRot_eq (x : BitVec 32) {k : Nat} (h : k < 32) : lkRot x k = x.rotateLeft k := by
  rw [BitVec.rotateLeft_def, Nat.mod_eq_of_lt h]; rfl

theorem lkMix_eq (s : Lk) : lkMix s = Spec.mix s := by
  obtain ⟨a, b, c⟩ := s
  simp only [lkMix, Spec.mix, Spec.mixRound, lkRot_eq _ (show 4 < 32 by decide), lkRot_eq _ (show 6 < 32 by decide),
    lkRot_eq _ (show 8 < 32 by decide), lkRot_eq _ (show 16 < 32 by decide), lkRot_eq _ (show 19 < 32 by decide)]

theorem lkFinal_eq (s : Lk) : lkFinal s = Spec.final s := by
  obtain ⟨a, b, c⟩ := s
  simp only [lkFinal, Spec.final, Spec.finalRound, lkRot_eq _ (show 14 < 32 by decide), lkRot_eq _ (show 11 < 32 by decide),
    lkRot_eq _ (show 25 < 32 by decide), lkRot_eq _ (show 16 < 32 by decide), lkRot_eq _ (show 4 < 32 by decide),
    lkRot_eq _ (show 24 < 32 by decide)]

/-- One octet in a word. -/
def lkO (o : UInt8) (i : Nat) : BitVec 32 := BitVec.ofNat 32 (o.toNat * 2 ^ i)

theorem lkO_shl (o : UInt8) (i : Nat) : lk32 o.toNat <<< i = lkO o i := by
  apply BitVec.eq_of_toNat_eq
  simp [lkO, lk32, BitVec.toNat_shiftLeft, Nat.shiftLeft_eq]

theorem lkO_zero (o : UInt8) : lk32 o.toNat = lkO o 0 := by simp [lkO]

theorem hashWord_false (os : List UInt8) : Spec.hashWord false os =
    lkO (os.getD 0 0) 0 + lkO (os.getD 1 0) 8 + lkO (os.getD 2 0) 16 + lkO (os.getD 3 0) 24 := by
  simp [Spec.hashWord, lkO, BitVec.ofNat_add]

theorem hashWord_true (os : List UInt8) : Spec.hashWord true os =
    lkO (os.getD 0 0) 24 + lkO (os.getD 1 0) 16 + lkO (os.getD 2 0) 8 + lkO (os.getD 3 0) 0 := by
  simp [Spec.hashWord, lkO, BitVec.ofNat_add]

theorem lkO_nil (i : Nat) : lkO 0 i = 0#32 := by simp [lkO]

theorem xor_lit (a b c d : UInt8) : a.toNat ^^^ (b.toNat <<< 8) ^^^ (c.toNat <<< 16) ^^^ (d.toNat <<< 24) =
    a.toNat + b.toNat * 2 ^ 8 + c.toNat * 2 ^ 16 + d.toNat * 2 ^ 24 := by
  have ha := a.toNat_lt
  have hb := b.toNat_lt
  have hc := c.toNat_lt
  rw [Nat.xor_comm a.toNat, shl_xor (by omega : a.toNat < 2 ^ 8), Nat.xor_comm (_ + _), shl_xor (by omega), Nat.xor_comm (_ + _), shl_xor (by omega)]
  omega

theorem xor_big (a b c d : UInt8) : (a.toNat <<< 24) ^^^ (b.toNat <<< 16) ^^^ (c.toNat <<< 8) ^^^ d.toNat =
    a.toNat * 2 ^ 24 + b.toNat * 2 ^ 16 + c.toNat * 2 ^ 8 + d.toNat := by
  have e : ∀ x y z w : Nat, x ^^^ y ^^^ z ^^^ w = w ^^^ z ^^^ y ^^^ x := fun x y z w => by ac_rfl
  rw [e, xor_lit d c b a]
  omega

theorem lit_word (a b c d : UInt8) : lk32 (a.toNat ^^^ (b.toNat <<< 8) ^^^ (c.toNat <<< 16) ^^^ (d.toNat <<< 24)) =
    lkO a 0 + lkO b 8 + lkO c 16 + lkO d 24 := by
  rw [xor_lit]; simp [lkO, lk32, BitVec.ofNat_add]

theorem big_word (a b c d : UInt8) : lk32 ((a.toNat <<< 24) ^^^ (b.toNat <<< 16) ^^^ (c.toNat <<< 8) ^^^ d.toNat) =
    lkO a 24 + lkO b 16 + lkO c 8 + lkO d 0 := by
  rw [xor_big]; simp [lkO, lk32, BitVec.ofNat_add]

theorem and_ofNat (x m : Nat) : lk32 x &&& BitVec.ofNat 32 m = lk32 (x &&& m) := by
  simp [lk32]

theorem lit_mask3 (a b c d : UInt8) : lk32 (a.toNat ^^^ (b.toNat <<< 8) ^^^ (c.toNat <<< 16) ^^^ (d.toNat <<< 24)) &&& 0xffffff#32 =
    lkO a 0 + lkO b 8 + lkO c 16 := by
  have ha := a.toNat_lt
  have hb := b.toNat_lt
  have hc := c.toNat_lt
  rw [xor_lit, and_ofNat, show (0xffffff : Nat) = 2 ^ 24 - 1 by decide, Nat.and_two_pow_sub_one_eq_mod, Nat.add_mul_mod_self_right,
    Nat.mod_eq_of_lt (by omega)]
  simp [lkO, lk32, BitVec.ofNat_add]

theorem lit_mask2 (a b c d : UInt8) : lk32 (a.toNat ^^^ (b.toNat <<< 8) ^^^ (c.toNat <<< 16) ^^^ (d.toNat <<< 24)) &&& 0xffff#32 =
    lkO a 0 + lkO b 8 := by
  have ha := a.toNat_lt
  have hb := b.toNat_lt
  rw [xor_lit, and_ofNat, show (0xffff : Nat) = 2 ^ 16 - 1 by decide, Nat.and_two_pow_sub_one_eq_mod,
    show a.toNat + b.toNat * 2 ^ 8 + c.toNat * 2 ^ 16 + d.toNat * 2 ^ 24 = a.toNat + b.toNat * 2 ^ 8 + (c.toNat + d.toNat * 2 ^ 8) * 2 ^ 16 by omega,
    Nat.add_mul_mod_self_right, Nat.mod_eq_of_lt (by omega)]
  simp [lkO, lk32, BitVec.ofNat_add]

theorem lit_mask1 (a b c d : UInt8) : lk32 (a.toNat ^^^ (b.toNat <<< 8) ^^^ (c.toNat <<< 16) ^^^ (d.toNat <<< 24)) &&& 0xff#32 = lkO a 0 := by
  have ha := a.toNat_lt
  rw [xor_lit, and_ofNat, show (0xff : Nat) = 2 ^ 8 - 1 by decide, Nat.and_two_pow_sub_one_eq_mod,
    show a.toNat + b.toNat * 2 ^ 8 + c.toNat * 2 ^ 16 + d.toNat * 2 ^ 24 = a.toNat + (b.toNat + c.toNat * 2 ^ 8 + d.toNat * 2 ^ 16) * 2 ^ 8 by omega,
    Nat.add_mul_mod_self_right, Nat.mod_eq_of_lt (by omega)]
  simp [lkO, lk32]

/-- The highest octets of a word. -/
theorem and_high {x i m : Nat} (hx : x < 2 ^ 32) (hm : m = (2 ^ (32 - i) - 1) <<< i) (hi : i ≤ 32) : x &&& m = x / 2 ^ i * 2 ^ i := by
  subst hm
  apply Nat.eq_of_testBit_eq
  intro j
  rw [← Nat.shiftRight_eq_div_pow, ← Nat.shiftLeft_eq, Nat.testBit_and, Nat.testBit_shiftLeft, Nat.testBit_shiftLeft, Nat.testBit_shiftRight,
    Nat.testBit_two_pow_sub_one]
  by_cases hj : j ≥ i
  · by_cases hj2 : j - i < 32 - i
    · simp [hj, hj2]
    · have : x.testBit j = false := Nat.testBit_lt_two_pow (Nat.lt_of_lt_of_le hx (Nat.pow_le_pow_right (by decide) (by omega)))
      simp [hj, hj2, this]
  · simp [hj]

theorem big_mask3 (a b c d : UInt8) : lk32 ((a.toNat <<< 24) ^^^ (b.toNat <<< 16) ^^^ (c.toNat <<< 8) ^^^ d.toNat) &&& 0xffffff00#32 =
    lkO a 24 + lkO b 16 + lkO c 8 := by
  have ha := a.toNat_lt
  have hb := b.toNat_lt
  have hc := c.toNat_lt
  have hd := d.toNat_lt
  rw [xor_big, and_ofNat, and_high (i := 8) (by omega) (by decide) (by decide),
    show a.toNat * 2 ^ 24 + b.toNat * 2 ^ 16 + c.toNat * 2 ^ 8 + d.toNat = d.toNat + (a.toNat * 2 ^ 16 + b.toNat * 2 ^ 8 + c.toNat) * 2 ^ 8 by omega,
    Nat.add_mul_div_right _ _ (by decide), Nat.div_eq_of_lt (by omega),
    show (0 + (a.toNat * 2 ^ 16 + b.toNat * 2 ^ 8 + c.toNat)) * 2 ^ 8 = a.toNat * 2 ^ 24 + b.toNat * 2 ^ 16 + c.toNat * 2 ^ 8 by omega]
  simp [lkO, lk32, BitVec.ofNat_add]

theorem big_mask2 (a b c d : UInt8) : lk32 ((a.toNat <<< 24) ^^^ (b.toNat <<< 16) ^^^ (c.toNat <<< 8) ^^^ d.toNat) &&& 0xffff0000#32 =
    lkO a 24 + lkO b 16 := by
  have ha := a.toNat_lt
  have hb := b.toNat_lt
  have hc := c.toNat_lt
  have hd := d.toNat_lt
  rw [xor_big, and_ofNat, and_high (i := 16) (by omega) (by decide) (by decide),
    show a.toNat * 2 ^ 24 + b.toNat * 2 ^ 16 + c.toNat * 2 ^ 8 + d.toNat = c.toNat * 2 ^ 8 + d.toNat + (a.toNat * 2 ^ 8 + b.toNat) * 2 ^ 16 by omega,
    Nat.add_mul_div_right _ _ (by decide), Nat.div_eq_of_lt (by omega),
    show (0 + (a.toNat * 2 ^ 8 + b.toNat)) * 2 ^ 16 = a.toNat * 2 ^ 24 + b.toNat * 2 ^ 16 by omega]
  simp [lkO, lk32, BitVec.ofNat_add]

theorem big_mask1 (a b c d : UInt8) : lk32 ((a.toNat <<< 24) ^^^ (b.toNat <<< 16) ^^^ (c.toNat <<< 8) ^^^ d.toNat) &&& 0xff000000#32 =
    lkO a 24 := by
  have ha := a.toNat_lt
  have hb := b.toNat_lt
  have hc := c.toNat_lt
  have hd := d.toNat_lt
  rw [xor_big, and_ofNat, and_high (i := 24) (by omega) (by decide) (by decide),
    show a.toNat * 2 ^ 24 + b.toNat * 2 ^ 16 + c.toNat * 2 ^ 8 + d.toNat = b.toNat * 2 ^ 16 + c.toNat * 2 ^ 8 + d.toNat + a.toNat * 2 ^ 24 by omega,
    Nat.add_mul_div_right _ _ (by decide), Nat.div_eq_of_lt (by omega), Nat.zero_add]
  simp [lkO, lk32]

theorem half_nat (a b : UInt8) : a.toNat ^^^ (b.toNat <<< 8) = a.toNat + b.toNat * 2 ^ 8 := by
  have ha := a.toNat_lt
  rw [Nat.xor_comm, shl_xor (by omega)]
  omega

theorem half_word (a b : UInt8) : lk32 (a.toNat ^^^ (b.toNat <<< 8)) = lkO a 0 + lkO b 8 := by
  rw [half_nat]; simp [lkO, lk32, BitVec.ofNat_add]

theorem lk32_shl (n i : Nat) : lk32 n <<< i = lk32 (n * 2 ^ i) := by
  apply BitVec.eq_of_toNat_eq
  simp [lk32, BitVec.toNat_shiftLeft, Nat.shiftLeft_eq]

theorem half_shl (a b : UInt8) : lk32 (a.toNat ^^^ (b.toNat <<< 8)) <<< 16 = lkO a 16 + lkO b 24 := by
  rw [half_nat, lk32_shl, Nat.add_mul, Nat.mul_assoc, ← Nat.pow_add]
  simp [lkO, lk32, BitVec.ofNat_add]

/-- The octets at offset `p` of the memory. -/
def RdAll (mem : List UInt8) : Nat → List UInt8 → Prop
  | _, [] => True
  | p, o :: os => rd mem p = ok o ∧ RdAll mem (p + 1) os

theorem rdAll_of_drop {mem : List UInt8} : ∀ (os : List UInt8) {p : Nat} {r : List UInt8}, mem.drop p = os ++ r → RdAll mem p os
  | [], _, _, _ => trivial
  | _ :: os, _, _, h => ⟨(rd_at h).1, rdAll_of_drop os (rd_at h).2⟩

theorem rdAll_append {mem : List UInt8} : ∀ {os ts : List UInt8} {p : Nat}, RdAll mem p (os ++ ts) → RdAll mem p os ∧ RdAll mem (p + os.length) ts
  | [], _, _, h => ⟨trivial, h⟩
  | o :: os, ts, p, h => by
    obtain ⟨h1, h2⟩ := rdAll_append (os := os) h.2
    exact ⟨⟨h.1, h1⟩, by rwa [List.length_cons, show p + (os.length + 1) = p + 1 + os.length by omega]⟩

end Wdns
