import Verif.Model.IpArith
import Verif.Spec.IpArith

/-!
# C87 — address ranges

`ip4_lower`/`ip4_upper` and `ip6_lower`/`ip6_upper` (libmy/ip_arith.h) give the first and the last address of the range of a prefix, `ip4_incr`
and `ip6_incr` the next address.  The shifts make some prefix lengths undefined: 0 and 1 for IPv4 and 0 and 64 for IPv6.
-/

namespace Wdns
open Outcome

theorem addrNum_append (xs ys : List UInt8) : Spec.addrNum (xs ++ ys) = Spec.addrNum xs * 256 ^ ys.length + Spec.addrNum ys := by
  have gen : ∀ (ys : List UInt8) (n : Nat), ys.foldl (fun n o => n * 256 + o.toNat) n = n * 256 ^ ys.length + ys.foldl (fun n o => n * 256 + o.toNat) 0 := by
    intro ys
    induction ys with
    | nil => intro n; simp
    | cons y ys ih =>
      intro n
      simp only [List.foldl_cons, List.length_cons]
      rw [ih (n * 256 + y.toNat), ih (0 * 256 + y.toNat), Nat.add_mul, Nat.zero_mul, Nat.zero_add, Nat.pow_succ, Nat.mul_comm (256 ^ ys.length) 256, Nat.mul_assoc]
      omega
  unfold Spec.addrNum
  rw [List.foldl_append, gen]

theorem addrNum_lt (xs : List UInt8) : Spec.addrNum xs < 256 ^ xs.length := by
  have gen : ∀ (n : Nat) (xs : List UInt8), xs.length = n → Spec.addrNum xs < 256 ^ n := by
    intro n
    induction n with
    | zero => intro xs h; rw [List.length_eq_zero_iff.mp h]; decide
    | succ n ih =>
      intro xs h
      match xs, h with
      | x :: xs, h =>
        have := ih xs (by simpa using h)
        have hx := x.toNat_lt
        have e : Spec.addrNum ([x] ++ xs) = Spec.addrNum [x] * 256 ^ xs.length + Spec.addrNum xs := addrNum_append [x] xs
        have h1 : Spec.addrNum [x] = x.toNat := by simp [Spec.addrNum]
        have hl : xs.length = n := by simpa using h
        rw [show x :: xs = [x] ++ xs from rfl, e, h1, hl, Nat.pow_succ]
        have : x.toNat * 256 ^ n + 256 ^ n ≤ 256 ^ n * 256 := by
          rw [← Nat.succ_mul, Nat.mul_comm]
          exact Nat.mul_le_mul_left _ (by omega)
        omega
  exact gen _ xs rfl

theorem beLoad_eq {mem : List UInt8} {p n : Nat} (h : p + n ≤ mem.length) : beLoad mem p n = ok (Spec.addrNum ((mem.drop p).take n)) := by
  unfold beLoad
  rw [rdN_ok h, ok_bind]
  congr 1
  unfold Spec.addrNum
  congr 1
  funext v o
  have := o.toNat_lt
  rw [← Nat.shiftLeft_add_eq_or_of_lt (by omega), Nat.shiftLeft_eq]

theorem beStore_length (v : Nat) : ∀ n, (beStore n v).length = n
  | 0 => rfl
  | n + 1 => by simp [beStore, beStore_length v n]

theorem beStore_num (v : Nat) : ∀ n, Spec.addrNum (beStore n v) = v % 256 ^ n
  | 0 => by simp [beStore, Spec.addrNum, Nat.mod_one]
  | n + 1 => by
    rw [beStore, show ∀ (x : UInt8) (xs : List UInt8), x :: xs = [x] ++ xs from fun _ _ => rfl, addrNum_append, beStore_num v n, beStore_length]
    have h1 : Spec.addrNum [UInt8.ofNat (v >>> (8 * n))] = v / 256 ^ n % 256 := by
      simp only [Spec.addrNum, List.foldl_cons, List.foldl_nil]
      rw [Nat.shiftRight_eq_div_pow, Nat.pow_mul, show 2 ^ 8 = 256 by decide]
      simp
    rw [h1, Nat.pow_succ, Nat.mod_mul, Nat.mul_comm, Nat.add_comm]

theorem or_low (x k : Nat) : x ||| (2 ^ k - 1) = x / 2 ^ k * 2 ^ k + (2 ^ k - 1) := by
  have hp := Nat.two_pow_pos k
  rw [← Nat.shiftLeft_eq, Nat.shiftLeft_add_eq_or_of_lt (by omega : 2 ^ k - 1 < 2 ^ k)]
  apply Nat.eq_of_testBit_eq
  intro j
  rw [Nat.testBit_or, Nat.testBit_or, Nat.testBit_shiftLeft, ← Nat.shiftRight_eq_div_pow, Nat.testBit_shiftRight, Nat.testBit_two_pow_sub_one]
  by_cases hj : j < k
  · simp [hj]
  · simp [hj, Nat.le_of_not_lt hj]

theorem and_top {x k w : Nat} (hx : x < 2 ^ w) (hk : k ≤ w) : x &&& (2 ^ w - 2 ^ k) = x / 2 ^ k * 2 ^ k := by
  have hm : 2 ^ w - 2 ^ k = (2 ^ (w - k) - 1) <<< k := by
    rw [Nat.shiftLeft_eq, Nat.sub_mul, Nat.one_mul, ← Nat.pow_add, Nat.sub_add_cancel hk]
  rw [hm]
  apply Nat.eq_of_testBit_eq
  intro j
  rw [← Nat.shiftRight_eq_div_pow, ← Nat.shiftLeft_eq, Nat.testBit_and, Nat.testBit_shiftLeft, Nat.testBit_shiftLeft, Nat.testBit_shiftRight,
    Nat.testBit_two_pow_sub_one]
  by_cases hj : j ≥ k
  · by_cases hj2 : j - k < w - k
    · simp [hj, hj2]
    · have : x.testBit j = false := Nat.testBit_lt_two_pow (Nat.lt_of_lt_of_le hx (Nat.pow_le_pow_right (by decide) (by omega)))
      simp [hj, hj2, this]
  · simp [hj]

/-- The first address of a block. -/
theorem lowest_of {w len a : Nat} (ha : a < 2 ^ w) : Spec.IsLowest w len a (a / 2 ^ (w - len) * 2 ^ (w - len)) := by
  have hp := Nat.two_pow_pos (w - len)
  refine ⟨Nat.lt_of_le_of_lt (Nat.div_mul_le_self _ _) ha, ?_, ?_⟩
  · unfold Spec.SamePrefix
    rw [Nat.mul_div_cancel _ hp]
  · intro x _ h
    rw [show a / 2 ^ (w - len) = x / 2 ^ (w - len) from h]
    exact Nat.div_mul_le_self _ _

/-- The last address of a block. -/
theorem highest_of {w len a : Nat} (ha : a < 2 ^ w) : Spec.IsHighest w len a (a / 2 ^ (w - len) * 2 ^ (w - len) + (2 ^ (w - len) - 1)) := by
  have hp := Nat.two_pow_pos (w - len)
  refine ⟨?_, ?_, ?_⟩
  · have e : 2 ^ w = 2 ^ (w - len) * 2 ^ (w - (w - len)) := by rw [← Nat.pow_add]; congr 1; omega
    have h1 : a / 2 ^ (w - len) < 2 ^ (w - (w - len)) := Nat.div_lt_of_lt_mul (by rw [← e]; exact ha)
    have h2 : (a / 2 ^ (w - len) + 1) * 2 ^ (w - len) ≤ 2 ^ (w - (w - len)) * 2 ^ (w - len) := Nat.mul_le_mul_right _ h1
    rw [Nat.add_mul, Nat.one_mul] at h2
    rw [e, Nat.mul_comm (2 ^ (w - len)) (2 ^ (w - (w - len)))]
    omega
  · unfold Spec.SamePrefix
    rw [Nat.add_comm, Nat.add_mul_div_right _ _ hp, Nat.div_eq_of_lt (a := 2 ^ (w - len) - 1) (by omega), Nat.zero_add]
  · intro x _ h
    rw [show a / 2 ^ (w - len) = x / 2 ^ (w - len) from h]
    have h1 := Nat.div_add_mod x (2 ^ (w - len))
    have h2 := Nat.mod_lt x hp
    rw [Nat.mul_comm] at h1
    omega

theorem intOneShl_ok {len : Nat} (h2 : 2 ≤ len) (h32 : len ≤ 32) : intOneShl len = ok (2 ^ (32 - len)) := by
  have e : (2 ^ 32 + 32 - len) % 2 ^ 32 = 32 - len := by omega
  unfold intOneShl
  simp only [e]
  rw [if_neg (by omega)]

theorem num4 (v : Nat) (h : v < 2 ^ 32) : Spec.addrNum (beStore 4 v) = v := by
  rw [beStore_num, Nat.mod_eq_of_lt (by omega)]

/-- IPv4, prefix lengths 2 to 32: the first address of the range. -/
theorem C87_ip4_lower {address : List UInt8} (ha : address.length = 4) {len : Nat} (h2 : 2 ≤ len) (h32 : len ≤ 32) :
    ∃ out, ip4Lower address len = ok out ∧ out.length = 4 ∧ Spec.IsLowest 32 len (Spec.addrNum address) (Spec.addrNum out) := by
  have hn : Spec.addrNum address < 2 ^ 32 := by have := addrNum_lt address; rw [ha] at this; omega
  have hb := beLoad_eq (mem := address) (p := 0) (n := 4) (by omega)
  rw [List.drop_zero, List.take_of_length_le (by omega)] at hb
  refine ⟨beStore 4 (Spec.addrNum address &&& (2 ^ 32 - 1 - (2 ^ (32 - len) - 1))), ?_, beStore_length _ _, ?_⟩
  · unfold ip4Lower
    rw [hb, ok_bind, intOneShl_ok h2 h32, ok_bind]
  · have hp := Nat.two_pow_pos (32 - len)
    have hle : 2 ^ (32 - len) ≤ 2 ^ 32 := Nat.pow_le_pow_right (by decide) (by omega)
    rw [show 2 ^ 32 - 1 - (2 ^ (32 - len) - 1) = 2 ^ 32 - 2 ^ (32 - len) by omega, and_top hn (by omega), num4 _ (Nat.lt_of_le_of_lt (Nat.div_mul_le_self _ _) hn)]
    exact lowest_of hn

/-- A case of `C87_ip4_lower`. -/
example : ∃ out, ip4Lower [192, 0, 2, 77] 26 = ok out ∧ Spec.IsLowest 32 26 (Spec.addrNum [192, 0, 2, 77]) (Spec.addrNum out) := by
  obtain ⟨o, h, -, hl⟩ := C87_ip4_lower (address := [192, 0, 2, 77]) rfl (len := 26) (by decide) (by decide); exact ⟨o, h, hl⟩

/-- IPv4, prefix lengths 2 to 32: the last address of the range. -/
theorem C87_ip4_upper {address : List UInt8} (ha : address.length = 4) {len : Nat} (h2 : 2 ≤ len) (h32 : len ≤ 32) :
    ∃ out, ip4Upper address len = ok out ∧ out.length = 4 ∧ Spec.IsHighest 32 len (Spec.addrNum address) (Spec.addrNum out) := by
  have hn : Spec.addrNum address < 2 ^ 32 := by have := addrNum_lt address; rw [ha] at this; omega
  have hb := beLoad_eq (mem := address) (p := 0) (n := 4) (by omega)
  rw [List.drop_zero, List.take_of_length_le (by omega)] at hb
  refine ⟨beStore 4 (Spec.addrNum address ||| (2 ^ (32 - len) - 1)), ?_, beStore_length _ _, ?_⟩
  · unfold ip4Upper
    rw [hb, ok_bind, intOneShl_ok h2 h32, ok_bind]
  · have h := highest_of (len := len) hn
    rw [or_low, num4 _ h.1]
    exact h

/-- IPv4: the next address; the last one is followed by the first. -/
theorem C87_ip4_incr {address : List UInt8} (ha : address.length = 4) : ∃ out, ip4Incr address = ok out ∧ out.length = 4 ∧
    Spec.addrNum out = (Spec.addrNum address + 1) % 2 ^ 32 := by
  have hb := beLoad_eq (mem := address) (p := 0) (n := 4) (by omega)
  rw [List.drop_zero, List.take_of_length_le (by omega)] at hb
  refine ⟨beStore 4 ((Spec.addrNum address + 1) % 2 ^ 32), ?_, beStore_length _ _, ?_⟩
  · unfold ip4Incr
    rw [hb, ok_bind]
  · rw [num4 _ (by omega)]

theorem mask64_ok {k : Nat} (h0 : 0 < k) (h : k < 64) : mask64 k = ok (2 ^ 64 - 2 ^ (64 - k)) := by
  unfold mask64
  rw [if_neg (by omega), Nat.shiftLeft_eq, Nat.shiftLeft_eq, Nat.one_mul, Nat.sub_mul, ← Nat.pow_add, Nat.one_mul, show k + (64 - k) = 64 by omega]
  have hp := Nat.two_pow_pos (64 - k)
  rw [Nat.mod_eq_of_lt (by omega)]

/-- The two halves of an IPv6 address. -/
theorem halves {address : List UInt8} (ha : address.length = 16) : ∃ hi lo, beLoad address 0 8 = ok hi ∧ beLoad address 8 8 = ok lo ∧ hi < 2 ^ 64 ∧ lo < 2 ^ 64 ∧
    Spec.addrNum address = hi * 2 ^ 64 + lo := by
  have h0 := beLoad_eq (mem := address) (p := 0) (n := 8) (by omega)
  have h1 := beLoad_eq (mem := address) (p := 8) (n := 8) (by omega)
  rw [List.drop_zero] at h0
  have l0 : (address.take 8).length = 8 := by simp; omega
  have l1 : ((address.drop 8).take 8).length = 8 := by simp; omega
  refine ⟨_, _, h0, h1, ?_, ?_, ?_⟩
  · have := addrNum_lt (address.take 8); rw [l0] at this; omega
  · have := addrNum_lt ((address.drop 8).take 8); rw [l1] at this; omega
  · have e := addrNum_append (address.take 8) ((address.drop 8).take 8)
    rw [l1, List.take_of_length_le (by simp; omega : (address.drop 8).length ≤ 8), List.take_append_drop] at e
    rw [e, List.take_of_length_le (by simp; omega : (address.drop 8).length ≤ 8), show 256 ^ 8 = 2 ^ 64 by decide]

theorem num8 (v w : Nat) (hv : v < 2 ^ 64) (hw : w < 2 ^ 64) : Spec.addrNum (beStore 8 v ++ beStore 8 w) = v * 2 ^ 64 + w := by
  rw [addrNum_append, beStore_num, beStore_num, beStore_length, show 256 ^ 8 = 2 ^ 64 by decide, Nat.mod_eq_of_lt hv, Nat.mod_eq_of_lt hw]

/-- Division of a number of two halves. -/
theorem two_halves_high (hi lo k : Nat) (hlo : lo < 2 ^ 64) : (hi * 2 ^ 64 + lo) / 2 ^ (64 + k) = hi / 2 ^ k := by
  rw [Nat.pow_add, ← Nat.div_div_eq_div_mul, Nat.add_comm (hi * 2 ^ 64), Nat.add_mul_div_right _ _ (by decide), Nat.div_eq_of_lt hlo, Nat.zero_add]

theorem two_halves_low (hi lo : Nat) {k : Nat} (hk : k ≤ 64) : (hi * 2 ^ 64 + lo) / 2 ^ k * 2 ^ k = hi * 2 ^ 64 + lo / 2 ^ k * 2 ^ k := by
  have e : hi * 2 ^ 64 = hi * 2 ^ (64 - k) * 2 ^ k := by rw [Nat.mul_assoc, ← Nat.pow_add]; congr 2; omega
  rw [e, Nat.add_comm, Nat.add_mul_div_right _ _ (Nat.two_pow_pos k), Nat.add_mul, Nat.add_comm]

/-- IPv6, all prefix lengths but 0 and 64 (lengths above 128 count as 128): the first address of the range. -/
theorem C87_ip6_lower {address : List UInt8} (ha : address.length = 16) {len : Nat} (h0 : len ≠ 0) (h64 : len ≠ 64) :
    ∃ out, ip6Lower address len = ok out ∧ out.length = 16 ∧ Spec.IsLowest 128 (min len 128) (Spec.addrNum address) (Spec.addrNum out) := by
  obtain ⟨hi, lo, hr0, hr1, hhi, hlo, hn⟩ := halves ha
  have hn' : hi * 2 ^ 64 + lo < 2 ^ 128 := by
    have : (hi + 1) * 2 ^ 64 ≤ 2 ^ 64 * 2 ^ 64 := Nat.mul_le_mul_right _ hhi
    omega
  have fin : ∀ m0 m1, (hi &&& m0) * 2 ^ 64 + (lo &&& m1) = (hi * 2 ^ 64 + lo) / 2 ^ (128 - min len 128) * 2 ^ (128 - min len 128) →
      (beStore 8 (hi &&& m0) ++ beStore 8 (lo &&& m1)).length = 16 ∧
        Spec.IsLowest 128 (min len 128) (Spec.addrNum address) (Spec.addrNum (beStore 8 (hi &&& m0) ++ beStore 8 (lo &&& m1))) := by
    intro m0 m1 h
    refine ⟨by simp [beStore_length], ?_⟩
    rw [num8 _ _ (Nat.lt_of_le_of_lt Nat.and_le_left hhi) (Nat.lt_of_le_of_lt Nat.and_le_left hlo), hn, h]
    exact lowest_of hn'
  have ones : ∀ x, x < 2 ^ 64 → x &&& (2 ^ 64 - 1) = x := fun x hx => by rw [Nat.and_two_pow_sub_one_eq_mod, Nat.mod_eq_of_lt hx]
  by_cases c1 : len < 64
  · refine ⟨_, ?_, fin (2 ^ 64 - 2 ^ (64 - len)) 0 ?_⟩
    · unfold ip6Lower
      rw [if_pos c1, mask64_ok (by omega) c1, ok_bind, ok_bind]
      dsimp only
      rw [hr0, ok_bind, hr1, ok_bind]
    · rw [Nat.min_eq_left (by omega), and_top hhi (by omega), Nat.and_zero, Nat.add_zero, show 128 - len = 64 + (64 - len) by omega, two_halves_high _ _ _ hlo,
        Nat.pow_add, Nat.mul_assoc, Nat.mul_comm (2 ^ 64)]
  · by_cases c2 : len < 128
    · refine ⟨_, ?_, fin (2 ^ 64 - 1) (2 ^ 64 - 2 ^ (64 - (len - 64))) ?_⟩
      · unfold ip6Lower
        rw [if_neg c1, if_pos c2, mask64_ok (by omega) (by omega), ok_bind, ok_bind]
        dsimp only
        rw [hr0, ok_bind, hr1, ok_bind]
      · rw [Nat.min_eq_left (by omega), ones _ hhi, and_top hlo (by omega), show 64 - (len - 64) = 128 - len by omega, two_halves_low _ _ (by omega)]
    · refine ⟨_, ?_, fin (2 ^ 64 - 1) (2 ^ 64 - 1) ?_⟩
      · unfold ip6Lower
        rw [if_neg c1, if_neg c2, ok_bind]
        dsimp only
        rw [hr0, ok_bind, hr1, ok_bind]
      · rw [Nat.min_eq_right (by omega), ones _ hhi, ones _ hlo]
        simp

/-- IPv6, all prefix lengths but 0 and 64: the last address of the range. -/
theorem C87_ip6_upper {address : List UInt8} (ha : address.length = 16) {len : Nat} (h0 : len ≠ 0) (h64 : len ≠ 64) :
    ∃ out, ip6Upper address len = ok out ∧ out.length = 16 ∧ Spec.IsHighest 128 (min len 128) (Spec.addrNum address) (Spec.addrNum out) := by
  obtain ⟨hi, lo, hr0, hr1, hhi, hlo, hn⟩ := halves ha
  have hn' : hi * 2 ^ 64 + lo < 2 ^ 128 := by
    have : (hi + 1) * 2 ^ 64 ≤ 2 ^ 64 * 2 ^ 64 := Nat.mul_le_mul_right _ hhi
    omega
  have fin : ∀ m0 m1, m0 < 2 ^ 64 → m1 < 2 ^ 64 → (hi ||| m0) * 2 ^ 64 + (lo ||| m1) =
        (hi * 2 ^ 64 + lo) / 2 ^ (128 - min len 128) * 2 ^ (128 - min len 128) + (2 ^ (128 - min len 128) - 1) →
      (beStore 8 (hi ||| m0) ++ beStore 8 (lo ||| m1)).length = 16 ∧
        Spec.IsHighest 128 (min len 128) (Spec.addrNum address) (Spec.addrNum (beStore 8 (hi ||| m0) ++ beStore 8 (lo ||| m1))) := by
    intro m0 m1 hm0 hm1 h
    refine ⟨by simp [beStore_length], ?_⟩
    rw [num8 _ _ (Nat.or_lt_two_pow hhi hm0) (Nat.or_lt_two_pow hlo hm1), hn, h]
    exact highest_of hn'
  have ones : ∀ x, x < 2 ^ 64 → x ||| (2 ^ 64 - 1) = 2 ^ 64 - 1 := fun x hx => by rw [or_low, Nat.div_eq_of_lt hx, Nat.zero_mul, Nat.zero_add]
  by_cases c1 : len < 64
  · have hp := Nat.two_pow_pos (64 - len)
    have hle : 2 ^ (64 - len) ≤ 2 ^ 64 := Nat.pow_le_pow_right (by decide) (by omega)
    refine ⟨_, ?_, fin (2 ^ 64 - 1 - (2 ^ 64 - 2 ^ (64 - len))) (2 ^ 64 - 1) (by omega) (by omega) ?_⟩
    · unfold ip6Upper
      rw [if_pos c1, mask64_ok (by omega) c1, ok_bind, ok_bind]
      dsimp only
      rw [hr0, ok_bind, hr1, ok_bind]
    · rw [Nat.min_eq_left (by omega), show 2 ^ 64 - 1 - (2 ^ 64 - 2 ^ (64 - len)) = 2 ^ (64 - len) - 1 by omega, or_low, ones _ hlo,
        show 128 - len = 64 + (64 - len) by omega, two_halves_high _ _ _ hlo, Nat.add_mul, Nat.pow_add, Nat.mul_assoc, Nat.mul_comm (2 ^ 64),
        Nat.add_assoc, Nat.sub_mul]
      have : 2 ^ 64 ≤ 2 ^ (64 - len) * 2 ^ 64 := Nat.le_mul_of_pos_left _ hp
      omega
  · by_cases c2 : len < 128
    · have hp := Nat.two_pow_pos (64 - (len - 64))
      have hle : 2 ^ (64 - (len - 64)) ≤ 2 ^ 64 := Nat.pow_le_pow_right (by decide) (by omega)
      refine ⟨_, ?_, fin 0 (2 ^ 64 - 1 - (2 ^ 64 - 2 ^ (64 - (len - 64)))) (by omega) (by omega) ?_⟩
      · unfold ip6Upper
        rw [if_neg c1, if_pos c2, mask64_ok (by omega) (by omega), ok_bind, ok_bind]
        dsimp only
        rw [hr0, ok_bind, hr1, ok_bind]
      · rw [Nat.min_eq_left (by omega), Nat.or_zero, show 2 ^ 64 - 1 - (2 ^ 64 - 2 ^ (64 - (len - 64))) = 2 ^ (64 - (len - 64)) - 1 by omega, or_low,
          show 64 - (len - 64) = 128 - len by omega, two_halves_low _ _ (by omega), Nat.add_assoc]
    · refine ⟨_, ?_, fin 0 0 (by omega) (by omega) ?_⟩
      · unfold ip6Upper
        rw [if_neg c1, if_neg c2, ok_bind]
        dsimp only
        rw [hr0, ok_bind, hr1, ok_bind]
      · rw [Nat.min_eq_right (by omega), Nat.or_zero, Nat.or_zero]
        simp

/-- A case of `C87_ip6_upper`: a prefix that ends inside the upper half. -/
example : ∃ out, ip6Upper (List.replicate 16 32) 19 = ok out ∧ Spec.IsHighest 128 19 (Spec.addrNum (List.replicate 16 32)) (Spec.addrNum out) := by
  obtain ⟨o, h, -, hl⟩ := C87_ip6_upper (address := List.replicate 16 32) rfl (len := 19) (by decide) (by decide); exact ⟨o, h, hl⟩

/-- IPv6: the next address; the last one is followed by the first. -/
theorem C87_ip6_incr {address : List UInt8} (ha : address.length = 16) : ∃ out, ip6Incr address = ok out ∧ out.length = 16 ∧
    Spec.addrNum out = (Spec.addrNum address + 1) % 2 ^ 128 := by
  obtain ⟨hi, lo, hr0, hr1, hhi, hlo, hn⟩ := halves ha
  unfold ip6Incr
  rw [hr0, ok_bind, hr1, ok_bind, hn]
  by_cases h : lo = 2 ^ 64 - 1
  · rw [if_pos h]
    refine ⟨_, rfl, by simp [beStore_length], ?_⟩
    rw [num8 _ _ (by omega) (by omega)]
    subst h
    by_cases h2 : hi = 2 ^ 64 - 1
    · subst h2; decide
    · rw [Nat.mod_eq_of_lt (by omega : hi + 1 < 2 ^ 64), Nat.mod_eq_of_lt]
      · omega
      · have : (hi + 2) * 2 ^ 64 ≤ 2 ^ 64 * 2 ^ 64 := Nat.mul_le_mul_right _ (by omega)
        omega
  · rw [if_neg h]
    refine ⟨_, rfl, by simp [beStore_length], ?_⟩
    rw [num8 _ _ hhi (by omega), Nat.mod_eq_of_lt]
    · omega
    · have : (hi + 1) * 2 ^ 64 ≤ 2 ^ 64 * 2 ^ 64 := Nat.mul_le_mul_right _ (by omega)
      omega

/-- The claim is false for the whole address space and for half of it: the shifts are undefined for IPv4 prefix lengths 0 and 1 (and those above 32)
and for IPv6 prefix lengths 0 and 64, whatever the address. -/
theorem C87_violated {a4 a6 : List UInt8} (h4 : a4.length = 4) :
    (∀ len < 2 ^ 32, (len < 2 ∨ 32 < len) → ip4Lower a4 len = ub ∧ ip4Upper a4 len = ub) ∧
    (∀ len, (len = 0 ∨ len = 64) → ip6Lower a6 len = ub ∧ ip6Upper a6 len = ub) := by
  constructor
  · intro len hl h
    have e : intOneShl len = ub := by
      unfold intOneShl
      dsimp only
      rw [if_pos]
      have : len = 0 ∨ len = 1 ∨ 32 < len := by omega
      rcases this with rfl | rfl | h
      · decide
      · decide
      · omega
    have hb := beLoad_eq (mem := a4) (p := 0) (n := 4) (by omega)
    constructor
    · unfold ip4Lower; rw [hb, ok_bind, e]; rfl
    · unfold ip4Upper; rw [hb, ok_bind, e]; rfl
  · rintro len (rfl | rfl) <;> exact ⟨rfl, rfl⟩

/-- 192.0.2.77/26 is 192.0.2.64 to 192.0.2.127; 2001:db8::5:1/68 starts at 2001:db8:: and ends at 2001:db8::fff:ffff:ffff:ffff. -/
example : ip4Lower [192, 0, 2, 77] 26 = ok [192, 0, 2, 64] ∧ ip4Upper [192, 0, 2, 77] 26 = ok [192, 0, 2, 127] := by decide +kernel
example : ip6Lower [0x20, 1, 0xd, 0xb8, 0, 0, 0, 0, 0, 0, 0, 0, 0, 5, 0, 1] 68 = ok [0x20, 1, 0xd, 0xb8, 0, 0, 0, 0, 0, 0, 0, 0, 0, 0, 0, 0] ∧
    ip6Upper [0x20, 1, 0xd, 0xb8, 0, 0, 0, 0, 0, 0, 0, 0, 0, 5, 0, 1] 68 =
      ok [0x20, 1, 0xd, 0xb8, 0, 0, 0, 0, 0x0f, 0xff, 0xff, 0xff, 0xff, 0xff, 0xff, 0xff] := by decide +kernel
example : ip6Incr [0, 0, 0, 0, 0, 0, 0, 9, 255, 255, 255, 255, 255, 255, 255, 255] = ok [0, 0, 0, 0, 0, 0, 0, 10, 0, 0, 0, 0, 0, 0, 0, 0] := by decide +kernel
example : ip4Lower [10, 1, 2, 3] 0 = ub := ((C87_violated (a6 := []) (a4 := [10, 1, 2, 3]) rfl).1 0 (by decide) (by decide)).1

end Wdns
