import Verif.Props.ArgvShow

/-!
# Properties of command lines: values shown and given again — C116
-/

namespace Wdns
open Outcome Spec

/-- The values of which the text that is shown denotes the value: truths that are 0 or 1, numbers (of `unsigned long` those up
to the largest `long`), octal and hexadecimal numbers that are not negative, sizes, of binary numbers 0 only. -/
def Spec.GivenBack (ty : Nat) (n : Int) : Prop :=
  (ty ∈ [1, 2, 3, 20, 21, 22] → n = 0 ∨ n = 1) ∧ (ty = 11 → n < 2 ^ 63) ∧ (ty = 14 → n = 0) ∧ (ty ∈ [15, 16] → 0 ≤ n) ∧ (ty = 19 → n < 2 ^ 63)

theorem number_numText (n : Int) (rest : List UInt8) (hr : ∀ c, rest.head? = some c → ¬ IsDigit c) : Spec.Number (Spec.numText n ++ rest) n rest := by
  obtain ⟨h1, h2, -, h4⟩ := decText_isDecimal n.natAbs
  unfold Spec.numText
  refine ⟨_, _, rfl, h1, h2, hr, ?_⟩
  split
  · right; refine ⟨rfl, ?_⟩; omega
  · left; refine ⟨.inl rfl, ?_⟩; omega

theorem not_digit {l : List UInt8} {c : UInt8} (x : List UInt8) (h : l = c :: x) (hc : ¬ IsDigit c) : ∀ c, l.head? = some c → ¬ IsDigit c := by
  intro d hd
  rw [h] at hd
  simp at hd
  rw [← hd]; exact hc

theorem inBase_shown {b : Nat} (hb : b = 8 ∨ b = 16) {ds rest : List UInt8} {n : Nat} (hd : Spec.Numeral b ds n) (hr : ∀ c, rest.head? = some c → isDigitIn b c = false) :
    Spec.inBase b ((if b = 16 then ascii "0x" else ascii "0") ++ ds ++ rest) = n := by
  obtain ⟨h1, h2, h3, h4⟩ := hd
  have htw : (ds ++ rest).takeWhile (isDigitIn b) = ds := by
    rw [List.takeWhile_append_of_pos (fun c hc => (h3 c hc).1)]
    cases rest with
    | nil => simp
    | cons c rest =>
      have := hr c rfl
      simp [this]
  unfold Spec.inBase
  rcases hb with rfl | rfl
  · have e : ascii "0" = [48] := by decide
    simp only [show ¬ (8 = 16) by decide, if_false, false_and, e]
    rw [List.append_assoc, List.singleton_append, List.dropWhile_cons_of_neg (by decide), List.takeWhile_cons_of_pos (by decide), htw]
    have : (hexDigitValue 48).getD 0 = 0 := by decide
    unfold digitsValue at *
    rw [List.foldl_cons, this]
    simpa using h4
  · have e : ascii "0x" = [48, 120] := by decide
    simp only [if_true, e]
    rw [List.append_assoc]
    have : ([48, 120] ++ (ds ++ rest)).dropWhile isSpace = 48 :: 120 :: (ds ++ rest) := by
      rw [List.cons_append, List.dropWhile_cons_of_neg (by decide)]; rfl
    rw [this]
    have e2 : (48 :: 120 :: (ds ++ rest)).take 2 = [48, 120] := by simp
    rw [e2, if_pos ⟨trivial, .inl rfl⟩]
    show digitsValue 16 (List.takeWhile _ (ds ++ rest)) = n
    rw [htw, h4]

theorem shown_isValue {real : Bool → Nat → List UInt8} {ty : Nat} {n : Int} {t : List UInt8} (hv : Spec.IsOf ty (.num n))
    (h : Spec.Displayed real ty (.num n) t) (hb : Spec.GivenBack ty n) : Spec.IsValue ty t (.num n) := by
  obtain ⟨b1, b2, b3, b4, b5⟩ := hb
  cases h with
  | yes _ hty _ hn =>
    have : n = 1 := by rcases b1 hty with h | h; exacts [absurd h hn, h]
    subst this
    exact .yes ty hty 116 _ (by decide)
  | no _ hty =>
    exact .no ty hty _ (by intro c hc; have : c = 102 := by revert hc; decide +revert
                           subst this; decide)
  | number _ hty =>
    have hN := number_numText n [] (by simp)
    rw [List.append_nil] at hN
    simp only [List.mem_cons, List.mem_nil_iff, or_false] at hty
    rcases hty with rfl | rfl | rfl | rfl | rfl | rfl | rfl <;> have hv1 := hv.1 <;> have hv2 := hv.2
    · exact .number 6 _ _ n rfl (by omega) (by omega) _ [] hN
    · exact .number 7 _ _ n rfl (by omega) (by omega) _ [] hN
    · exact .number 8 _ _ n rfl (by omega) (by omega) _ [] hN
    · exact .number 9 _ _ n rfl (by omega) (by omega) _ [] hN
    · exact .number 10 _ _ n rfl (by omega) (by omega) _ [] hN
    · have := b2 rfl
      exact .number 11 _ _ n rfl (by omega) (by omega) _ [] hN
    · exact .number 17 _ _ n rfl (by omega) (by omega) _ [] hN
  | zero _ hty =>
    simp only [List.mem_cons, List.mem_nil_iff, or_false] at hty
    have hN : Spec.Number (ascii "0") 0 [] := by
      have := number_numText 0 [] (by simp)
      exact this
    rcases hty with rfl | rfl | rfl | rfl | rfl
    · exact .base 14 2 (.inl ⟨rfl, rfl⟩) (ascii "0") (by decide)
    · exact .base 15 8 (.inr (.inl ⟨rfl, rfl⟩)) (ascii "0") (by decide)
    · exact .base 16 16 (.inr (.inr ⟨rfl, rfl⟩)) (ascii "0") (by decide)
    · exact .size 0 1 _ [] hN (.inl ⟨rfl, rfl⟩) (by omega) (by omega) (by omega)
    · exact .usize 0 1 _ [] hN (.inl ⟨rfl, rfl⟩) (by omega) (by omega)
  | base _ b pre hb _ hn ds hd =>
    simp only [List.mem_cons, Prod.mk.injEq, List.mem_nil_iff, or_false] at hb
    rcases hb with ⟨rfl, rfl, rfl⟩ | ⟨rfl, rfl, rfl⟩ | ⟨rfl, rfl, rfl⟩
    · exact absurd (b3 rfl) hn
    · have h0 := b4 (by simp)
      have hlt : n < 2 ^ 31 := hv.2
      have hin := inBase_shown (b := 8) (.inl rfl) (rest := ascii " (" ++ Spec.numText n ++ ascii ")") hd
        (by intro c hc; have : c = 32 := by revert hc; simp [ascii, eq_comm]
            subst this; decide)
      have e : (if 8 = 16 then ascii "0x" else ascii "0") ++ ds ++ (ascii " (" ++ Spec.numText n ++ ascii ")") =
        ascii "0" ++ ds ++ ascii " (" ++ Spec.numText n ++ ascii ")" := by simp
      rw [e] at hin
      have hval : ((n % 2 ^ 32).toNat : Int) = n := by omega
      have := Spec.IsValue.base 15 8 (.inr (.inl ⟨rfl, rfl⟩)) (ascii "0" ++ ds ++ ascii " (" ++ Spec.numText n ++ ascii ")") (by rw [hin]; omega)
      rw [hin, hval] at this
      exact this
    · have h0 := b4 (by simp)
      have hlt : n < 2 ^ 31 := hv.2
      have hin := inBase_shown (b := 16) (.inr rfl) (rest := ascii " (" ++ Spec.numText n ++ ascii ")") hd
        (by intro c hc; have : c = 32 := by revert hc; simp [ascii, eq_comm]
            subst this; decide)
      have e : (if 16 = 16 then ascii "0x" else ascii "0") ++ ds ++ (ascii " (" ++ Spec.numText n ++ ascii ")") =
        ascii "0x" ++ ds ++ ascii " (" ++ Spec.numText n ++ ascii ")" := by simp
      rw [e] at hin
      have hval : ((n % 2 ^ 32).toNat : Int) = n := by omega
      have := Spec.IsValue.base 16 16 (.inr (.inr ⟨rfl, rfl⟩)) (ascii "0x" ++ ds ++ ascii " (" ++ Spec.numText n ++ ascii ")") (by rw [hin]; omega)
      rw [hin, hval] at this
      exact this
  | size _ hty _ q hn e letter hl hq hmax =>
    have hu : ∃ c : UInt8, letter = [c] ∧ ¬ IsDigit c ∧ Spec.unit (letter ++ (ascii " (" ++ Spec.numText n ++ ascii ")")) (2 ^ e) ∧ (1 : Int) ≤ 2 ^ e := by
      simp only [List.mem_cons, Prod.mk.injEq, List.mem_nil_iff, or_false] at hl
      rcases hl with ⟨rfl, rfl⟩ | ⟨rfl, rfl⟩ | ⟨rfl, rfl⟩
      · exact ⟨107, rfl, by unfold IsDigit; decide, .inr ⟨107, _, rfl, .inl ⟨.inl rfl, rfl⟩⟩, by omega⟩
      · exact ⟨109, rfl, by unfold IsDigit; decide, .inr ⟨109, _, rfl, .inr (.inl ⟨.inl rfl, rfl⟩)⟩, by omega⟩
      · exact ⟨103, rfl, by unfold IsDigit; decide, .inr ⟨103, _, rfl, .inr (.inr ⟨.inl rfl, rfl⟩)⟩, by omega⟩
    obtain ⟨c, rfl, hc, hunit, hpos⟩ := hu
    have hN := number_numText q ([c] ++ (ascii " (" ++ Spec.numText n ++ ascii ")")) (not_digit _ rfl hc)
    have hassoc : Spec.numText q ++ [c] ++ ascii " (" ++ Spec.numText n ++ ascii ")" = Spec.numText q ++ ([c] ++ (ascii " (" ++ Spec.numText n ++ ascii ")")) := by
      simp only [List.append_assoc]
    rw [hassoc]
    have hbound : (0 ≤ q ∧ q ≤ n) ∨ (n ≤ q ∧ q ≤ 0) := by
      rcases Int.le_total 0 q with hq0 | hq0
      · left
        refine ⟨hq0, ?_⟩
        rw [hq]
        have := Int.mul_le_mul_of_nonneg_left hpos hq0
        omega
      · right
        refine ⟨?_, hq0⟩
        rw [hq]
        have h3 := Int.mul_nonneg (show 0 ≤ -q by omega) (show (0 : Int) ≤ 2 ^ e - 1 by omega)
        have h4 : -q * (2 ^ e - 1) = -(q * 2 ^ e) + q := by ring
        omega
    simp only [List.mem_cons, List.mem_nil_iff, or_false] at hty
    rcases hty with rfl | rfl
    · have hv1 : -2 ^ 63 ≤ n := hv.1
      have hv2 : n < 2 ^ 63 := hv.2
      have := Spec.IsValue.size q (2 ^ e) _ _ hN hunit (by omega) (by rw [← hq]; omega) (by rw [← hq]; omega)
      rw [← hq] at this
      exact this
    · have hv1 : 0 ≤ n := hv.1
      have hv2 := b5 rfl
      have := Spec.IsValue.usize q (2 ^ e) _ _ hN hunit (by omega) (by rw [← hq]; omega)
      rw [← hq] at this
      exact this
  | odd _ hty _ hn =>
    have hN := number_numText n [] (by simp)
    rw [List.append_nil] at hN
    simp only [List.mem_cons, List.mem_nil_iff, or_false] at hty
    rcases hty with rfl | rfl
    · have hv1 : -2 ^ 63 ≤ n := hv.1
      have hv2 : n < 2 ^ 63 := hv.2
      have := Spec.IsValue.size n 1 _ [] hN (.inl ⟨rfl, rfl⟩) (by omega) (by omega) (by omega)
      rwa [Int.mul_one] at this
    · have hv1 : 0 ≤ n := hv.1
      have hv2 := b5 rfl
      have := Spec.IsValue.usize n 1 _ [] hN (.inl ⟨rfl, rfl⟩) (by omega) (by omega)
      rwa [Int.mul_one] at this

/-- **C116.** The text of a number, given as an argument, is read as the number that was shown.  (Partial: see
`C116_binary_violated` and below for the values that are not.) -/
theorem C116_back_partial (cfg : ACfg) {real : Bool → Nat → List UInt8} {ty : Nat} {n : Int} {t : List UInt8} (hv : Spec.IsOf ty (.num n))
    (h : Spec.Displayed real ty (.num n) t) (hb : Spec.GivenBack ty n) (old : AVal) : convert cfg ty (some t) old = ok (.num n) :=
  C114_value (shown_isValue hv h hb) old

/-- **C116.** So is that of a character or a string that is shown as it is. -/
theorem C116_back_text (cfg : ACfg) {ty : Nat} {v : AVal} {t : List UInt8} (h : Spec.AsIs ty v t) (old : AVal) : convert cfg ty (some t) old = ok v := by
  cases h with
  | char c => exact C114_value (.char c []) old
  | text s => exact C114_value (.text t) old

/-- **C116 is false** for binary numbers: the text of any of them is read as 0. -/
theorem C116_binary_violated (cfg : ACfg) {real : Bool → Nat → List UInt8} {n : Int} (hn : n ≠ 0) {t : List UInt8}
    (h : Spec.Displayed real 14 (.num n) t) (old : AVal) : convert cfg 14 (some t) old = ok (.num 0) := by
  cases h with
  | yes _ h => simp at h
  | no _ h => simp at h
  | number _ h => simp at h
  | zero => exact absurd rfl hn
  | base _ b pre hb _ _ ds =>
    simp only [List.mem_cons, Prod.mk.injEq, List.mem_nil_iff, or_false] at hb
    rcases hb with ⟨-, rfl, rfl⟩ | ⟨h, -, -⟩ | ⟨h, -, -⟩
    · have e : ascii "0b" ++ ds ++ ascii " (" ++ Spec.numText n ++ ascii ")" = 48 :: 98 :: (ds ++ ascii " (" ++ Spec.numText n ++ ascii ")") := by
        simp [ascii]
      have hin : Spec.inBase 2 (48 :: 98 :: (ds ++ ascii " (" ++ Spec.numText n ++ ascii ")")) = 0 := by
        unfold Spec.inBase
        simp only [show ¬ (2 = 16) by decide, if_false, false_and]
        rw [List.dropWhile_cons_of_neg (by decide), List.takeWhile_cons_of_pos (by decide), List.takeWhile_cons_of_neg (by decide)]
        rfl
      rw [e]
      have := C114_value (cfg := cfg) (Spec.IsValue.base 14 2 (.inl ⟨rfl, rfl⟩) (48 :: 98 :: (ds ++ ascii " (" ++ Spec.numText n ++ ascii ")"))
        (by rw [hin]; decide)) old
      rw [hin] at this
      exact this
    · simp at h
    · simp at h
  | size _ h => simp at h
  | odd _ h => simp at h

theorem negative_base {b : Nat} (hb : b = 8 ∨ b = 16) {n : Int} (h1 : -2 ^ 31 ≤ n) (h2 : n < 0) {ds : List UInt8} (hd : Spec.Numeral b ds (n % 2 ^ 32).toNat) :
    baseToInt b ((if b = 16 then ascii "0x" else ascii "0") ++ ds ++ ascii " (" ++ Spec.numText n ++ ascii ")") = ub := by
  have hin := inBase_shown hb (rest := ascii " (" ++ Spec.numText n ++ ascii ")") hd
    (by intro c hc; have : c = 32 := by revert hc; simp [ascii, eq_comm]
        subst this; rcases hb with rfl | rfl <;> decide)
  simp only [← List.append_assoc] at hin
  rw [C111_bases b (by omega), hin, if_neg (by omega)]

/-- **C116 is false** for negative octal and hexadecimal numbers: reading their text overflows an `int`. -/
theorem C116_negative_base_violated (cfg : ACfg) {real : Bool → Nat → List UInt8} {ty : Nat} (hty : ty = 15 ∨ ty = 16) {n : Int} (h1 : -2 ^ 31 ≤ n) (h2 : n < 0)
    {t : List UInt8} (h : Spec.Displayed real ty (.num n) t) (old : AVal) : convert cfg ty (some t) old = ub := by
  cases h with
  | yes _ h => simp at h; omega
  | no _ h => simp at h2
  | number _ h => simp at h; omega
  | zero => simp at h2
  | base _ b pre hb _ _ ds hd =>
    simp only [List.mem_cons, Prod.mk.injEq, List.mem_nil_iff, or_false] at hb
    rcases hb with ⟨rfl, -, -⟩ | ⟨rfl, rfl, rfl⟩ | ⟨rfl, rfl, rfl⟩
    · omega
    · have := negative_base (b := 8) (.inl rfl) h1 h2 hd
      show (baseToInt 8 _ >>= fun n => ok (AVal.num n)) = ub
      rw [if_neg (by decide)] at this
      rw [this]; rfl
    · have := negative_base (b := 16) (.inr rfl) h1 h2 hd
      show (baseToInt 16 _ >>= fun n => ok (AVal.num n)) = ub
      rw [if_pos rfl] at this
      rw [this]; rfl
  | size _ h => simp at h; omega
  | odd _ h => simp at h; omega

/-- **C116 is false** for `unsigned long` from 2⁶³ on: the text of any of them is read as 2⁶³ - 1. -/
theorem C116_unsigned_violated (cfg : ACfg) (real : Bool → Nat → List UInt8) {n : Int} (h1 : 2 ^ 63 ≤ n) (old : AVal) :
    ∃ t, Spec.Displayed real 11 (.num n) t ∧ convert cfg 11 (some t) old = ok (.num (2 ^ 63 - 1)) := by
  refine ⟨_, .number 11 (by simp) n, ?_⟩
  have hs : (strtol (Spec.numText n)).1 = 2 ^ 63 - 1 := by
    obtain ⟨hne, hd, -, hval⟩ := decText_isDecimal n.natAbs
    have e : Spec.numText n = decText n.natAbs := by unfold Spec.numText; rw [if_neg (by omega), List.nil_append]
    have hscan := (scanInt_iff (decText n.natAbs) false n.natAbs).mpr ?_
    · unfold strtol
      rw [e, hscan]
      dsimp only
      rw [if_neg (by decide)]
      omega
    · exact ⟨[], [], decText n.natAbs, by simp, by simp, hne, hd, hval, .inl ⟨rfl, .inl rfl⟩⟩
  show ok (AVal.num ((strtol (Spec.numText n)).1 % 2 ^ 64)) = _
  rw [hs]
  rfl

/-! ### The theorems apply

A buffer of 16 octets of which 12 are given. -/

/-- A buffer full of `x`. -/
def showBuf : List UInt8 := List.replicate 16 120

example : Spec.Displayed (fun _ _ => []) 18 (.num 1537) (ascii "1537") := .odd 18 (by simp) 1537 (by decide)
example : Spec.Displayed (fun _ _ => []) 18 (.num (-2048)) (ascii "-2k (-2048)") :=
  .size 18 (by simp) (-2048) (-2) (by decide) 10 (ascii "k") (by simp) (by decide) (.inr (by decide))
example : valueToString (fun _ _ => []) 18 (.num (-2048)) showBuf 12 = ok (ascii "-2k (-2048)" ++ [0] ++ ascii "xxxx", 11) := by decide +kernel
example : valueToString (fun _ _ => []) 18 (.num (-2048)) showBuf 5 = ok (ascii "-2k " ++ [0] ++ ascii "xxxxxxxxxxx", 4) := by decide +kernel
example : Spec.Displayed (fun _ _ => []) 14 (.num 5) (ascii "0b101 (5)") :=
  .base 14 2 (ascii "0b") (by simp) 5 (by decide) (ascii "101") ⟨by decide, by decide, by decide, by decide⟩
example : valueToString (fun _ _ => []) 14 (.num 5) showBuf 12 = ok (ascii "0b101 (5)" ++ [0, 0, 0] ++ ascii "xxxx", 9) := by decide +kernel
example : Spec.AsIs 5 (.str (some (ascii "eth0"))) (ascii "eth0") := .text _ (by unfold Spec.plainChar; decide)
example : valueToString (fun _ _ => []) 5 (.str (some (ascii "eth0"))) showBuf 12 = ok (ascii "eth0xxxxxxxxxxxx", 4) := by decide +kernel
example : valueToString (fun _ _ => []) 4 (.chr 10) showBuf 12 = ok ([92, 0] ++ ascii "xxxxxxxxxxxxxx", 2) := by decide +kernel
example : argvValueString (fun _ _ => []) ⟨105, none, 5, true, false, true,
    some (.many [.str (some (ascii "a")), .str (some (ascii "b")), .str (some (ascii "c"))])⟩ (List.replicate 30 120) 28 =
    ok (ascii "a (1st of 3 entries)" ++ [0, 0, 0, 0, 0, 0, 0, 0] ++ ascii "xx", 20) := by decide +kernel
example : valueToString (fun _ _ => []) 16 (.num 255) showBuf 12 = ok (ascii "0xff (255)" ++ [0] ++ ascii "xxxxx", 10) := by decide +kernel
example : Spec.GivenBack 16 255 ∧ Spec.IsOf 16 (.num 255) := ⟨by unfold Spec.GivenBack; decide, by decide, by decide⟩
example : Spec.Displayed (fun _ _ => []) 15 (.num (-1)) (ascii "037777777777 (-1)") :=
  .base 15 8 (ascii "0") (by simp) (-1) (by decide) (ascii "37777777777") ⟨by decide, by decide, by decide, by decide⟩
end Wdns
