import Verif.Model.Format
import Verif.Spec.Format
import Verif.Lemmas.Unpack
import Mathlib.Data.List.Induction

/-!
# Lemmas about decimal and hexadecimal numerals
-/

namespace Wdns
open Outcome Spec

/-! ## the decimal numeral -/

theorem head?_app {l m : List UInt8} (h : l ≠ []) : (l ++ m).head? = l.head? := by
  cases l with
  | nil => exact absurd rfl h
  | cons => rfl

theorem toNat_ofNat_lt {n : Nat} (h : n < 256) : (UInt8.ofNat n).toNat = n := by simp; omega

theorem decDigits_fuel (n : Nat) : ∀ f g, n < f → n < g → decDigits f n = decDigits g n := by
  induction n using Nat.strongRecOn with
  | ind n ih =>
    intro f g hf hg
    cases f with
    | zero => omega
    | succ f =>
      cases g with
      | zero => omega
      | succ g =>
        simp only [decDigits]
        by_cases h : n < 10
        · simp [h]
        · simp only [h, if_false]
          rw [ih (n / 10) (by omega) f g (by omega) (by omega)]

theorem decText_lt {n : Nat} (h : n < 10) : decText n = [UInt8.ofNat (48 + n)] := by simp [decText, decDigits, h]
theorem decText_ge {n : Nat} (h : 10 ≤ n) : decText n = decText (n / 10) ++ [UInt8.ofNat (48 + n % 10)] := by
  have h' : ¬ n < 10 := by omega
  rw [decText, decDigits]
  simp only [h', if_false]
  rw [decDigits_fuel (n / 10) n (n / 10 + 1) (by omega) (by omega)]; rfl

theorem decVal_append (s : List UInt8) (b : UInt8) : decVal (s ++ [b]) = 10 * decVal s + digitVal b := by
  simp [decVal]

theorem digit_ofNat {k : Nat} (h : k < 10) : IsDigit (UInt8.ofNat (48 + k)) ∧ digitVal (UInt8.ofNat (48 + k)) = k := by
  unfold IsDigit digitVal
  rw [toNat_ofNat_lt (by omega)]
  omega

theorem decText_isDecimal (n : Nat) : IsDecimal (decText n) n := by
  induction n using Nat.strongRecOn with
  | ind n ih =>
    by_cases h : n < 10
    · rw [decText_lt h]
      obtain ⟨h1, h2⟩ := digit_ofNat h
      refine ⟨by simp, by simpa using h1, ?_, ?_⟩
      · simp
      · simpa [decVal] using h2
    · rw [decText_ge (by omega)]
      obtain ⟨a1, a2, a3, a4⟩ := ih (n / 10) (by omega)
      obtain ⟨h1, h2⟩ := digit_ofNat (k := n % 10) (by omega)
      refine ⟨by simp, ?_, ?_, ?_⟩
      · intro b hb
        simp only [List.mem_append, List.mem_singleton] at hb
        rcases hb with hb | rfl
        · exact a2 b hb
        · exact h1
      · intro hh
        rw [head?_app a1] at hh
        have := a3 hh
        rw [this] at a4
        simp [decVal, digitVal] at a4
        omega
      · rw [decVal_append, a4, h2]; omega

/-- There is only one decimal numeral for a number. -/
theorem decText_unique (s : List UInt8) : ∀ n, IsDecimal s n → s = decText n := by
  induction s using List.reverseRecOn with
  | nil => intro n h; exact absurd rfl h.1
  | append_singleton s b ih =>
    intro n ⟨h1, h2, h3, h4⟩
    have hb := h2 b (by simp)
    rw [decVal_append] at h4
    have hbv : digitVal b < 10 := by unfold digitVal IsDigit at *; omega
    have hbb : b = UInt8.ofNat (48 + digitVal b) := by
      rw [← UInt8.toNat_inj, toNat_ofNat_lt (by omega)]; unfold digitVal IsDigit at *; omega
    by_cases hs : s = []
    · subst hs
      simp [decVal] at h4
      rw [← h4, decText_lt hbv, ← hbb]; rfl
    · have hd : IsDecimal s (decVal s) := by
        refine ⟨hs, fun x hx => h2 x (by simp [hx]), ?_, rfl⟩
        intro hh
        have := h3 (by rw [head?_app hs]; exact hh)
        have := congrArg List.length this
        simp at this
        exact absurd this hs
      have hpos : decVal s ≠ 0 := by
        intro h0
        have e := ih _ hd
        rw [h0] at e
        have : s.head? = some 48 := by rw [e]; rfl
        have := h3 (by rw [head?_app hs]; exact this)
        have := congrArg List.length this
        simp at this
        exact absurd this hs
      rw [decText_ge (by omega), show n / 10 = decVal s by omega, show n % 10 = digitVal b by omega, ← ih _ hd, ← hbb]

theorem decText_length {n k : Nat} (hk : 0 < k) : n < 10 ^ k → (decText n).length ≤ k := by
  induction k generalizing n with
  | zero => omega
  | succ k ih =>
    intro h
    by_cases h10 : n < 10
    · rw [decText_lt h10]; simp
    · rw [decText_ge (by omega)]
      have hk' : 0 < k := by
        rcases Nat.eq_zero_or_pos k with rfl | h'
        · simp at h; omega
        · exact h'
      have := ih hk' (n := n / 10) (by rw [Nat.pow_succ] at h; omega)
      simp; omega

/-! ## `my_uint64_to_str` -/

theorem set_take_drop {dst : List UInt8} {p : Nat} (h : p < dst.length) (x : UInt8) :
    dst.set p x = dst.take p ++ x :: dst.drop (p + 1) := by
  rw [List.set_eq_take_append_cons_drop, if_pos h]

/-- The digits are stored right to left, ending at offset `p`; the bytes before and after stay. -/
theorem u64Loop_spec : ∀ (p num nd : Nat) (dst : List UInt8), p < dst.length → ∃ s start,
    u64Loop p num nd dst = (dst.take start ++ s ++ dst.drop (p + 1), nd + s.length, start) ∧ start + s.length = p + 1 ∧
    (∀ b ∈ s, IsDigit b) ∧ (num < 10 ^ (p + 1) → s = decText num) ∧ s ≠ [] := by
  intro p
  induction p with
  | zero =>
    intro num nd dst h
    obtain ⟨h1, h2⟩ := digit_ofNat (k := num % 10) (by omega)
    refine ⟨[UInt8.ofNat (48 + num % 10)], 0, ?_, rfl, by simpa using h1, ?_, by simp⟩
    · rw [u64Loop, set_take_drop h]; rfl
    · intro hn
      simp only [Nat.zero_add, Nat.pow_one] at hn
      rw [decText_lt hn, Nat.mod_eq_of_lt hn]
  | succ p ih =>
    intro num nd dst h
    obtain ⟨h1, h2⟩ := digit_ofNat (k := num % 10) (by omega)
    by_cases h0 : num / 10 = 0
    · refine ⟨[UInt8.ofNat (48 + num % 10)], p + 1, ?_, rfl, by simpa using h1, ?_, by simp⟩
      · simp only [u64Loop, h0, if_true]
        rw [set_take_drop h]; simp
      · intro _
        rw [decText_lt (by omega), Nat.mod_eq_of_lt (by omega)]
    · obtain ⟨s, start, e, e2, e3, e4, e5⟩ := ih (num / 10) (nd + 1) (dst.set (p + 1) (UInt8.ofNat (48 + num % 10))) (by simp; omega)
      refine ⟨s ++ [UInt8.ofNat (48 + num % 10)], start, ?_, ?_, ?_, ?_, by simp⟩
      · simp only [u64Loop, h0, if_false, e]
        have hs : start ≤ p + 1 := by omega
        congr 1
        · rw [set_take_drop h, List.take_append_of_le_length (by simp; omega), List.take_take, Nat.min_eq_left hs,
            List.drop_append_of_le_length (by simp; omega), List.drop_take, Nat.sub_self, List.take_zero]
          simp
        · congr 1; simp; omega
      · simp; omega
      · intro b hb
        simp only [List.mem_append, List.mem_singleton] at hb
        rcases hb with hb | rfl
        · exact e3 b hb
        · exact h1
      · intro hn
        rw [decText_ge (by omega), e4 (by rw [Nat.pow_succ] at hn; omega)]

theorem uint64ToStr_spec (num : Nat) (dst : List UInt8) (h : 2 ≤ dst.length) : ∃ s start,
    uint64ToStr num dst = ok (dst.take start ++ s ++ [0], s.length, (start : Int)) ∧ start + s.length + 1 = dst.length ∧
    (∀ b ∈ s, IsDigit b) ∧ (num < 10 ^ (dst.length - 1) → s = decText num) ∧ s ≠ [] := by
  obtain ⟨n, hn⟩ : ∃ n, dst.length = n + 2 := ⟨dst.length - 2, by omega⟩
  obtain ⟨s, start, e, e2, e3, e4, e5⟩ := u64Loop_spec n num 0 (dst.set (n + 1) 0) (by simp; omega)
  refine ⟨s, start, ?_, by omega, e3, ?_, e5⟩
  · unfold uint64ToStr
    rw [hn]
    simp only [e]
    have hs : start ≤ n + 1 := by omega
    rw [set_take_drop (by omega), List.take_append_of_le_length (by simp; omega), List.take_take, Nat.min_eq_left hs,
            List.drop_append_of_le_length (by simp; omega), List.drop_take, Nat.sub_self, List.take_zero,
            List.drop_of_length_le (show dst.length ≤ n + 1 + 1 by omega)]
    simp
  · rw [hn]; exact e4

theorem decStr_eq {num size : Nat} (h1 : 2 ≤ size) (h2 : num < 10 ^ (size - 1)) : decStr num size = ok (decText num) := by
  obtain ⟨s, start, e, e2, e3, e4, e5⟩ := uint64ToStr_spec num (List.replicate size 0) (by simp; omega)
  simp only [List.length_replicate] at e2 e4
  have hs := e4 h2
  unfold decStr
  simp only [e, ok_bind]
  rw [if_neg (by omega), Int.toNat_natCast]
  rw [rdN_ok (by simp; omega), ← hs]
  congr 1
  rw [List.append_assoc, List.drop_append_of_le_length (by simp; omega), List.drop_of_length_le (by simp; omega)]
  simp

/-! ## hexadecimal -/

theorem byteToHex_spec : ∀ (b : UInt8) (u : Bool), ∃ x y, byteToHex b u = [x, y] ∧ hexVal x = some (b.toNat / 16) ∧
    hexVal y = some (b.toNat % 16) ∧ (u = true → ¬ (97 ≤ x.toNat ∧ x.toNat ≤ 122) ∧ ¬ (97 ≤ y.toNat ∧ y.toNat ≤ 122)) ∧
    (u = false → ¬ (65 ≤ x.toNat ∧ x.toNat ≤ 90) ∧ ¬ (65 ≤ y.toNat ∧ y.toNat ≤ 90)) := by
  have h : ∀ n : Fin 256, ∀ u : Bool, (match byteToHex (UInt8.ofNat n.val) u with
    | [x, y] => decide (hexVal x = some (n.val / 16)) && decide (hexVal y = some (n.val % 16)) &&
      (!u || (decide (¬ (97 ≤ x.toNat ∧ x.toNat ≤ 122)) && decide (¬ (97 ≤ y.toNat ∧ y.toNat ≤ 122)))) &&
      (u || (decide (¬ (65 ≤ x.toNat ∧ x.toNat ≤ 90)) && decide (¬ (65 ≤ y.toNat ∧ y.toNat ≤ 90))))
    | _ => false) = true := by decide +kernel
  intro b u
  have := h ⟨b.toNat, u8_lt b⟩ u
  simp only [UInt8.ofNat_toNat] at this
  refine ⟨_, _, rfl, ?_⟩
  simp only [byteToHex] at this
  simp only [Bool.and_eq_true, decide_eq_true_eq, Bool.or_eq_true, Bool.not_eq_true'] at this
  obtain ⟨⟨⟨a, b⟩, c⟩, d⟩ := this
  refine ⟨a, b, ?_, ?_⟩
  · rintro rfl; simpa using c
  · rintro rfl; simpa using d

theorem byteToHex_length (b : UInt8) (u : Bool) : (byteToHex b u).length = 2 := rfl

theorem hexLoop_eq (u : Bool) (cap : Nat) : ∀ (bs out : List UInt8), out.length + 2 * bs.length ≤ cap →
    hexLoop u cap bs out = ok (out ++ bs.flatMap (byteToHex · u)) := by
  intro bs
  induction bs with
  | nil => intro out _; simp [hexLoop]
  | cons b bs ih =>
    intro out h
    simp only [List.length_cons] at h
    simp only [hexLoop]
    rw [wrN_ok (by simp [byteToHex_length]; omega), ok_bind, ih _ (by simp [byteToHex_length]; omega)]
    simp

theorem flatMap_hex_length (bs : List UInt8) (u : Bool) : (bs.flatMap (byteToHex · u)).length = 2 * bs.length := by
  induction bs with
  | nil => rfl
  | cons b bs ih => simp only [List.flatMap_cons, List.length_append, ih, byteToHex_length, List.length_cons]; omega

theorem bytesToHexStr_eq (src : List UInt8) (u : Bool) {n : Nat} (hn : 0 < n) :
    bytesToHexStr src u n = ok ((src.take ((n - 1) / 2)).flatMap (byteToHex · u)) := by
  have hn' : n ≠ 0 := by omega
  unfold bytesToHexStr
  simp only [hn', if_false]
  have htk : src.take (if src.length * 2 > n - 1 then (n - 1) / 2 else src.length) = src.take ((n - 1) / 2) := by
    split
    · rfl
    · rw [List.take_of_length_le (Nat.le_refl _), List.take_of_length_le (by omega)]
  rw [htk]
  have hl : (src.take ((n - 1) / 2)).length ≤ (n - 1) / 2 := by simp; omega
  rw [hexLoop_eq u n _ [] (by simp only [List.length_nil]; omega), ok_bind, List.nil_append,
    wr_ok (by rw [flatMap_hex_length]; omega), ok_bind]

end Wdns
