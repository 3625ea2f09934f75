import Verif.Model.ArgvShow
import Verif.Props.ArgvValues
import Mathlib.Tactic.Ring

/-!
# Properties of command lines: values as text — C116
-/

namespace Wdns
open Outcome Spec

/-! ### Specification -/

/-- A number in decimal, with a `-` if it is negative. -/
def Spec.numText (n : Int) : List UInt8 := (if n < 0 then ascii "-" else []) ++ decText n.natAbs

/-- The digits of a number in base `b`, in lower case, without leading zeros. -/
def Spec.Numeral (b : Nat) (ds : List UInt8) (n : Nat) : Prop :=
  ds ≠ [] ∧ ds.head? ≠ some 48 ∧ (∀ c ∈ ds, isDigitIn b c = true ∧ ¬ (65 ≤ c.toNat ∧ c.toNat ≤ 70)) ∧ digitsValue b ds = n

/-- The values that a variable of a type can hold: `char` (as a truth value), `short`, … -/
def Spec.IsOf : Nat → AVal → Prop
  | 1, .num n => -2 ^ 7 ≤ n ∧ n < 2 ^ 7
  | 2, .num n => -2 ^ 7 ≤ n ∧ n < 2 ^ 7
  | 3, .num n => -2 ^ 7 ≤ n ∧ n < 2 ^ 7
  | 4, .chr _ => True
  | 5, .str none => True
  | 5, .str (some s) => 0 ∉ s
  | 6, .num n => -2 ^ 15 ≤ n ∧ n < 2 ^ 15
  | 7, .num n => 0 ≤ n ∧ n < 2 ^ 16
  | 8, .num n => -2 ^ 31 ≤ n ∧ n < 2 ^ 31
  | 9, .num n => 0 ≤ n ∧ n < 2 ^ 32
  | 10, .num n => -2 ^ 63 ≤ n ∧ n < 2 ^ 63
  | 11, .num n => 0 ≤ n ∧ n < 2 ^ 64
  | 12, .real _ => True
  | 13, .real _ => True
  | 14, .num n => -2 ^ 31 ≤ n ∧ n < 2 ^ 31
  | 15, .num n => -2 ^ 31 ≤ n ∧ n < 2 ^ 31
  | 16, .num n => -2 ^ 31 ≤ n ∧ n < 2 ^ 31
  | 17, .num n => -2 ^ 31 ≤ n ∧ n < 2 ^ 31
  | 18, .num n => -2 ^ 63 ≤ n ∧ n < 2 ^ 63
  | 19, .num n => 0 ≤ n ∧ n < 2 ^ 64
  | 20, .num n => -2 ^ 31 ≤ n ∧ n < 2 ^ 31
  | 21, .num n => -2 ^ 31 ≤ n ∧ n < 2 ^ 31
  | 22, .num n => -2 ^ 31 ≤ n ∧ n < 2 ^ 31
  | _, _ => False

/-- How a value of a type is shown: truths in words, numbers in decimal, binary, octal and hexadecimal numbers in their base
(of the 32-bit pattern) and in decimal, sizes in the largest unit that divides them and in full. -/
inductive Spec.Displayed (real : Bool → Nat → List UInt8) : Nat → AVal → List UInt8 → Prop
  | yes (ty : Nat) (h : ty ∈ [1, 2, 3, 20, 21, 22]) (n : Int) (hn : n ≠ 0) : Spec.Displayed real ty (.num n) (ascii "true (! 0)")
  | no (ty : Nat) (h : ty ∈ [1, 2, 3, 20, 21, 22]) : Spec.Displayed real ty (.num 0) (ascii "false (0)")
  | null : Spec.Displayed real 5 (.str none) (ascii "(null)")
  | number (ty : Nat) (h : ty ∈ [6, 7, 8, 9, 10, 11, 17]) (n : Int) : Spec.Displayed real ty (.num n) (Spec.numText n)
  | float (r : Nat) : Spec.Displayed real 12 (.real r) (real false r)
  | double (r : Nat) : Spec.Displayed real 13 (.real r) (real true r)
  | zero (ty : Nat) (h : ty ∈ [14, 15, 16, 18, 19]) : Spec.Displayed real ty (.num 0) (ascii "0")
  | base (ty b : Nat) (pre : List UInt8) (h : (ty, b, pre) ∈ [(14, 2, ascii "0b"), (15, 8, ascii "0"), (16, 16, ascii "0x")]) (n : Int)
      (hn : n ≠ 0) (ds : List UInt8) (hd : Spec.Numeral b ds (n % 2 ^ 32).toNat) :
      Spec.Displayed real ty (.num n) (pre ++ ds ++ ascii " (" ++ Spec.numText n ++ ascii ")")
  | size (ty : Nat) (h : ty ∈ [18, 19]) (n q : Int) (hn : n ≠ 0) (e : Nat) (letter : List UInt8)
      (hl : (e, letter) ∈ [(10, ascii "k"), (20, ascii "m"), (30, ascii "g")]) (hq : n = q * 2 ^ e)
      (hmax : e = 30 ∨ ¬ (2 ^ (e + 10) : Int) ∣ n) :
      Spec.Displayed real ty (.num n) (Spec.numText q ++ letter ++ ascii " (" ++ Spec.numText n ++ ascii ")")
  | odd (ty : Nat) (h : ty ∈ [18, 19]) (n : Int) (hn : ¬ (2 ^ 10 : Int) ∣ n) : Spec.Displayed real ty (.num n) (Spec.numText n)

/-- The buffer shows a text, cut to what fits: its characters and a NUL, nothing else is written behind the first `size`
octets, and `len` is the number of characters. -/
def Spec.Shows (mem mem' : List UInt8) (size : Nat) (t : List UInt8) (len : Nat) : Prop :=
  len = min t.length (size - 1) ∧ mem'.length = mem.length ∧ mem'.take (len + 1) = t.take (size - 1) ++ [0] ∧
    mem'.drop size = mem.drop size

/-- A character that is shown as it is: printable, and none of `^"'\`. -/
def Spec.plainChar (c : UInt8) : Prop := 32 ≤ c.toNat ∧ c.toNat ≤ 126 ∧ c ∉ ascii "^\"'\\"

/-! ### Proof -/

theorem poke_ok {mem : List UInt8} {i : Nat} {bs : List UInt8} (h : i + bs.length ≤ mem.length) :
    poke mem i bs = ok (mem.take i ++ bs ++ mem.drop (i + bs.length)) := if_pos h

theorem poke_len {mem mem' : List UInt8} {i : Nat} {bs : List UInt8} (h : poke mem i bs = ok mem') :
    mem'.length = mem.length ∧ ∀ k, i + bs.length ≤ k → mem'.drop k = mem.drop k := by
  unfold poke at h
  split at h
  · rename_i hle
    cases h
    constructor
    · simp only [List.length_append, List.length_take, List.length_drop]; omega
    · intro k hk
      rw [List.drop_append, List.drop_eq_nil_of_le (by simp only [List.length_append, List.length_take]; omega), List.nil_append, List.drop_drop]
      congr 1
      simp only [List.length_append, List.length_take]; omega
  · cases h

theorem strlenAt_text {T R : List UInt8} (h : (0 : UInt8) ∉ T) : strlenAt (T ++ 0 :: R) = ok T.length := by
  unfold strlenAt
  have : (T ++ 0 :: R).takeWhile (· ≠ 0) = T := by
    rw [List.takeWhile_append_of_pos (by intro c hc; simp only [ne_eq, decide_eq_true_eq]; rintro rfl; exact h hc)]
    simp
  simp only [this, List.length_append, List.length_cons]
  rw [if_pos (by omega)]

theorem shows_text {mem mem' t R : List UInt8} {size : Nat} (h0 : (0 : UInt8) ∉ t) (he : mem' = t.take (size - 1) ++ 0 :: R)
    (hl : mem'.length = mem.length) (hd : mem'.drop size = mem.drop size) :
    strlenAt mem' = ok (min t.length (size - 1)) ∧ Spec.Shows mem mem' size t (min t.length (size - 1)) := by
  have hT : (0 : UInt8) ∉ t.take (size - 1) := fun h => h0 (List.mem_of_mem_take h)
  refine ⟨?_, rfl, hl, ?_, hd⟩
  · rw [he, strlenAt_text hT, List.length_take, Nat.min_comm]
  · rw [he, List.take_append, List.take_of_length_le (by rw [List.length_take]; omega), List.length_take, Nat.min_comm]
    simp

theorem copyText_shows {mem t : List UInt8} {size : Nat} (h0 : (0 : UInt8) ∉ t) (h1 : 1 ≤ size) (h2 : size ≤ mem.length) :
    ∃ mem' len, copyText mem size t = ok (mem', len) ∧ Spec.Shows mem mem' size t len := by
  unfold copyText strncpyAt
  have hF : (t.take size ++ List.replicate (size - t.length) (0 : UInt8)).length = size := by
    simp only [List.length_append, List.length_take, List.length_replicate]; omega
  have e1 : poke mem 0 (t.take size ++ List.replicate (size - t.length) 0) =
      ok ((t.take size ++ List.replicate (size - t.length) 0) ++ mem.drop size) := by
    rw [poke_ok (by rw [hF]; omega), hF]; simp
  rw [e1, ok_bind, if_neg (by omega)]
  have e2 : poke ((t.take size ++ List.replicate (size - t.length) 0) ++ mem.drop size) (size - 1) [0] =
      ok (t.take (size - 1) ++ List.replicate (size - 1 - t.length) 0 ++ [0] ++ mem.drop size) := by
    rw [poke_ok (by simp only [List.length_append, hF, List.length_drop, List.length_singleton]; omega)]
    congr 1
    congr 1
    · congr 1
      rw [List.take_append_of_le_length (by omega), List.take_append, List.take_take, Nat.min_eq_left (by omega), List.take_replicate,
        List.length_take]
      congr 2
      omega
    · rw [List.length_singleton, Nat.sub_add_cancel h1, List.drop_append, List.drop_eq_nil_of_le (by omega), hF]
      simp
  rw [e2, ok_bind]
  have he : t.take (size - 1) ++ List.replicate (size - 1 - t.length) 0 ++ [0] ++ mem.drop size =
      t.take (size - 1) ++ 0 :: (List.drop 1 (List.replicate (size - 1 - t.length) (0 : UInt8) ++ [0]) ++ mem.drop size) := by
    rw [List.append_assoc, List.append_assoc]
    congr 1
    cases size - 1 - t.length with
    | zero => simp
    | succ k => simp [List.replicate_succ]
  have hl : (t.take (size - 1) ++ List.replicate (size - 1 - t.length) 0 ++ [0] ++ mem.drop size).length = mem.length := by
    simp only [List.length_append, List.length_take, List.length_replicate, List.length_drop, List.length_singleton]; omega
  have hd : (t.take (size - 1) ++ List.replicate (size - 1 - t.length) 0 ++ [0] ++ mem.drop size).drop size = mem.drop size := by
    rw [List.drop_append, List.drop_eq_nil_of_le (by
      simp only [List.length_append, List.length_take, List.length_replicate, List.length_singleton]; omega)]
    simp only [List.length_append, List.length_take, List.length_replicate, List.length_singleton, List.nil_append, List.drop_drop]
    congr 1
    omega
  obtain ⟨a, b⟩ := shows_text h0 he hl hd
  rw [a, ok_bind]
  exact ⟨_, _, rfl, b⟩

theorem printText_shows {mem t : List UInt8} {size : Nat} (h0 : (0 : UInt8) ∉ t) (h1 : 1 ≤ size) (h2 : size ≤ mem.length) :
    ∃ mem' len, printText mem size t = ok (mem', len) ∧ Spec.Shows mem mem' size t len := by
  unfold printText snprintfAt
  rw [if_neg (by omega)]
  have hF : (t.take (size - 1) ++ [(0 : UInt8)]).length ≤ size := by
    simp only [List.length_append, List.length_take, List.length_singleton]; omega
  have hp : poke mem 0 (t.take (size - 1) ++ [0]) = ok (t.take (size - 1) ++ [0] ++ mem.drop (t.take (size - 1) ++ [(0 : UInt8)]).length) := by
    rw [poke_ok (by omega)]; simp
  obtain ⟨hl, hd⟩ := poke_len hp
  rw [hp, ok_bind]
  obtain ⟨a, b⟩ := shows_text (mem := mem) (size := size) (R := mem.drop (t.take (size - 1) ++ [(0 : UInt8)]).length)
    (mem' := t.take (size - 1) ++ [0] ++ mem.drop (t.take (size - 1) ++ [(0 : UInt8)]).length) h0 (by simp) hl (hd size (by omega))
  rw [a, ok_bind]
  exact ⟨_, _, rfl, b⟩

theorem zeroText_shows {mem : List UInt8} {size : Nat} (h1 : 2 ≤ size) (h2 : size ≤ mem.length) :
    ∃ mem' len, zeroText mem = ok (mem', len) ∧ Spec.Shows mem mem' size (ascii "0") len := by
  have : zeroText mem = printText mem size (ascii "0") := by
    unfold zeroText printText snprintfAt
    rw [if_neg (by omega), List.take_of_length_le (show (ascii "0").length ≤ size - 1 by rw [show (ascii "0").length = 1 from rfl]; omega)]
    rfl
  rw [this]
  exact printText_shows (by decide) (by omega) h2

theorem numText_ne (n : Int) : (0 : UInt8) ∉ Spec.numText n := by
  unfold Spec.numText
  obtain ⟨-, hd, -⟩ := decText_isDecimal n.natAbs
  intro h
  rw [List.mem_append] at h
  rcases h with h | h
  · split at h
    · revert h; decide
    · simp at h
  · have := hd 0 h
    unfold IsDigit at this
    simp at this

theorem fmtI_eq (n : Int) : fmtI n = Spec.numText n := by
  unfold fmtI Spec.numText
  rw [fmtU_eq]
  split
  · rfl
  · rfl

theorem fmtU_num {n : Int} (h : 0 ≤ n) : fmtU n.toNat = Spec.numText n := by
  unfold Spec.numText
  rw [fmtU_eq, if_neg (by omega), List.nil_append]
  congr 1
  omega

theorem digitChar_in (b : Nat) (hb : b ≤ 16) (k : Nat) (hk : k < b) : isDigitIn b (UInt8.ofNat (Nat.digitChar k).toNat) = true ∧
    ¬ (65 ≤ (UInt8.ofNat (Nat.digitChar k).toNat).toNat ∧ (UInt8.ofNat (Nat.digitChar k).toNat).toNat ≤ 70) ∧
    hexDigitValue (UInt8.ofNat (Nat.digitChar k).toNat) = some k ∧ (k ≠ 0 → UInt8.ofNat (Nat.digitChar k).toNat ≠ 48) := by
  have : ∀ k < 16, ¬ (65 ≤ (UInt8.ofNat (Nat.digitChar k).toNat).toNat ∧ (UInt8.ofNat (Nat.digitChar k).toNat).toNat ≤ 70) ∧
    hexDigitValue (UInt8.ofNat (Nat.digitChar k).toNat) = some k ∧ (k ≠ 0 → UInt8.ofNat (Nat.digitChar k).toNat ≠ 48) := by decide +kernel
  obtain ⟨h1, h2, h3⟩ := this k (by omega)
  refine ⟨?_, h1, h2, h3⟩
  unfold isDigitIn
  rw [h2]
  simpa using hk

theorem fmtBase_numeral (b : Nat) (h2 : 2 ≤ b) (hb : b ≤ 16) (n : Nat) (hn : n ≠ 0) : Spec.Numeral b (fmtBase b n) n := by
  induction n using Nat.strongRecOn with
  | ind n ih =>
    unfold fmtBase
    rw [Nat.toDigits_eq_if (by omega)]
    by_cases h : n < b
    · obtain ⟨a1, a2, a3, a4⟩ := digitChar_in b hb n h
      rw [if_pos h]
      refine ⟨by simp, by simpa using a4 hn, by intro c hc; simp at hc; subst hc; exact ⟨a1, a2⟩, ?_⟩
      simp [digitsValue, a3]
    · obtain ⟨a1, a2, a3, a4⟩ := digitChar_in b hb (n % b) (Nat.mod_lt _ (by omega))
      have hq : n / b ≠ 0 := by
        have := Nat.div_pos (Nat.le_of_not_lt h) (by omega)
        omega
      obtain ⟨i1, i2, i3, i4⟩ := ih (n / b) (Nat.div_lt_self (by omega) (by omega)) hq
      rw [if_neg h, List.map_append, List.map_singleton]
      change Spec.Numeral b (fmtBase b (n / b) ++ _) n
      refine ⟨by simp, ?_, ?_, ?_⟩
      · rw [head?_app i1]; exact i2
      · intro c hc
        rw [List.mem_append] at hc
        rcases hc with hc | hc
        · exact i3 c hc
        · simp at hc; subst hc; exact ⟨a1, a2⟩
      · unfold digitsValue at *
        rw [List.foldl_append, i4]
        simp only [List.foldl_cons, List.foldl_nil, a3, Option.getD_some]
        exact Nat.div_add_mod' n b

theorem bitLoop_in (v : Nat) : ∀ k first, ∀ c ∈ bitLoop v k first, c = 48 ∨ c = 49 := by
  intro k
  induction k with
  | zero => intro first c hc; simp [bitLoop] at hc
  | succ k ih =>
    intro first c hc
    rw [bitLoop] at hc
    split at hc
    · split at hc
      · rcases List.mem_cons.mp hc with rfl | hc
        · exact .inl rfl
        · exact ih _ _ hc
      · exact ih _ _ hc
    · rcases List.mem_cons.mp hc with rfl | hc
      · exact .inr rfl
      · exact ih _ _ hc

theorem bitLoop_value (v : Nat) : ∀ k first acc, (first = false → acc = 0) →
    (bitLoop v k first).foldl (fun n c => n * 2 + (hexDigitValue c).getD 0) acc = acc * 2 ^ k + v % 2 ^ k := by
  intro k
  induction k with
  | zero => intro first acc _; simp [bitLoop, Nat.mod_one]
  | succ k ih =>
    intro first acc h
    have e0 : (hexDigitValue 48).getD 0 = 0 := by decide
    have e1 : (hexDigitValue 49).getD 0 = 1 := by decide
    have hm : v % 2 ^ (k + 1) = v % 2 ^ k + 2 ^ k * (v / 2 ^ k % 2) := by rw [Nat.pow_succ, Nat.mod_mul]
    rw [bitLoop, hm]
    split
    · rename_i hz
      rw [hz]
      split
      · rw [List.foldl_cons, e0, ih _ _ (by rintro rfl; simp_all)]
        rw [Nat.pow_succ]; ring
      · rename_i hf
        have hf' : first = false := by simpa using hf
        rw [ih _ _ h, h hf']
        simp
    · have : v / 2 ^ k % 2 = 1 := by omega
      rw [this, List.foldl_cons, e1, ih _ _ (by simp)]
      rw [Nat.pow_succ]; ring

theorem bitLoop_head (v : Nat) : ∀ k, (bitLoop v k false).head? ≠ some 48 := by
  intro k
  induction k with
  | zero => simp [bitLoop]
  | succ k ih =>
    rw [bitLoop]
    split
    · simpa using ih
    · simp

theorem bitLoop_numeral {v : Nat} (h : v ≠ 0) (hv : v < 2 ^ 32) : Spec.Numeral 2 (bitLoop v 32 false) v := by
  have hval := bitLoop_value v 32 false 0 (by simp)
  rw [Nat.zero_mul, Nat.zero_add, Nat.mod_eq_of_lt hv] at hval
  refine ⟨?_, bitLoop_head v 32, ?_, hval⟩
  · intro he
    rw [he] at hval
    simp at hval
    omega
  · intro c hc
    rcases bitLoop_in v 32 false c hc with rfl | rfl <;> decide

theorem numeral_ne {b : Nat} {ds : List UInt8} {n : Nat} (h : Spec.Numeral b ds n) : (0 : UInt8) ∉ ds := by
  intro h0
  have := (h.2.2.1 0 h0).1
  unfold isDigitIn at this
  rw [show hexDigitValue 0 = none by decide] at this
  simp at this

theorem digit_char : ∀ n < 256, ∀ d < 16, hexDigitValue (UInt8.ofNat n) = some d → ¬ (65 ≤ n ∧ n ≤ 70) →
    UInt8.ofNat n = UInt8.ofNat (Nat.digitChar d).toNat := by decide +kernel

theorem numeral_unique (b : Nat) (h2 : 2 ≤ b) (hb : b ≤ 16) : ∀ (ds : List UInt8) (n : Nat), Spec.Numeral b ds n → ds = fmtBase b n := by
  intro ds
  induction ds using List.reverseRecOn with
  | nil => intro n h; exact absurd rfl h.1
  | append_singleton xs c ih =>
    rintro n ⟨-, h1, h2', h3⟩
    have hc := h2' c (by simp)
    obtain ⟨d, hd, hlt⟩ : ∃ d, hexDigitValue c = some d ∧ d < b := by
      have := hc.1
      unfold isDigitIn at this
      split at this
      · rename_i v hv; exact ⟨v, hv, by simpa using this⟩
      · cases this
    have hcc : c = UInt8.ofNat (Nat.digitChar d).toNat := by
      have := digit_char c.toNat c.toNat_lt d (by omega) (by simpa using hd) hc.2
      simpa using this
    have hval : digitsValue b xs * b + d = n := by
      rw [← h3]; simp [digitsValue, hd]
    unfold fmtBase
    rw [Nat.toDigits_eq_if (by omega)]
    by_cases hx : xs = []
    · subst hx
      have : n = d := by rw [← hval]; simp [digitsValue]
      subst this
      rw [if_pos hlt, List.nil_append, List.map_singleton, ← hcc]
    · have hn := ih (digitsValue b xs) ⟨hx, by rw [← head?_app (m := [c]) hx]; exact h1, fun c hc => h2' c (by simp [hc]), rfl⟩
      have hpos : digitsValue b xs ≠ 0 := by
        intro h0
        rw [h0] at hn
        have : fmtBase b 0 = [48] := by
          unfold fmtBase; rw [Nat.toDigits_eq_if (by omega), if_pos (by omega)]; rfl
        rw [this] at hn
        rw [hn] at h1
        exact h1 rfl
      have hge : ¬ n < b := by
        rw [← hval]
        have := Nat.mul_le_mul_right b (Nat.one_le_iff_ne_zero.mpr hpos)
        omega
      have hdiv : n / b = digitsValue b xs := by
        rw [← hval, Nat.mul_comm, Nat.mul_add_div (by omega), Nat.div_eq_of_lt hlt]; rfl
      have hmod : n % b = d := by
        rw [← hval, Nat.mul_comm, Nat.mul_add_mod, Nat.mod_eq_of_lt hlt]
      rw [if_neg hge, hdiv, hmod, List.map_append, List.map_singleton, ← hcc]
      change _ = fmtBase b (digitsValue b xs) ++ _
      rw [← hn]

theorem emod_ne {n : Int} (h : n ≠ 0) (h1 : -2 ^ 31 ≤ n) (h2 : n < 2 ^ 31) : (n % 2 ^ 32).toNat ≠ 0 ∧ (n % 2 ^ 32).toNat < 2 ^ 32 := by omega

theorem based_ne {pre ds : List UInt8} {n : Int} (h : (0 : UInt8) ∉ pre) (h1 : (0 : UInt8) ∉ ds) :
    (0 : UInt8) ∉ pre ++ ds ++ ascii " (" ++ Spec.numText n ++ ascii ")" := by
  have e1 : (0 : UInt8) ∉ ascii " (" := by decide
  have e2 : (0 : UInt8) ∉ ascii ")" := by decide
  simp only [List.mem_append]
  have := numText_ne n
  rintro ((((h | h) | h) | h) | h) <;> contradiction

theorem tmod_iff (n : Int) {m : Int} : n.tmod m = 0 ↔ m ∣ n := (Int.dvd_iff_tmod_eq_zero).symm

/-- The text of a size, for `f` as `%ld` makes it. -/
theorem sizeText_shows {real : Bool → Nat → List UInt8} {ty : Nat} (hty : ty ∈ [18, 19]) {n : Int} {t : List UInt8}
    (h : Spec.Displayed real ty (.num n) t) {f : Int → List UInt8} (hf : ∀ q : Int, q = n ∨ (0 ≤ q ∧ q ≤ n) ∨ (n ≤ q ∧ q ≤ 0) → f q = Spec.numText q)
    {mem : List UInt8} {size : Nat} (h1 : 2 ≤ size) (h2 : size ≤ mem.length) :
    ∃ mem' len, sizeText mem size n f = ok (mem', len) ∧ Spec.Shows mem mem' size t len := by
  unfold sizeText
  simp only [tmod_iff]
  have hq : ∀ (q m : Int), 0 < m → n = q * m → f q = Spec.numText q := by
    intro q m hm hn
    apply hf
    rcases Int.le_total 0 q with hq | hq
    · refine .inr (.inl ⟨hq, ?_⟩)
      rw [hn]
      have := Int.mul_le_mul_of_nonneg_left (show (1 : Int) ≤ m by omega) hq
      omega
    · refine .inr (.inr ⟨?_, hq⟩)
      rw [hn]
      have h3 := Int.mul_nonneg (show 0 ≤ -q by omega) (show 0 ≤ m - 1 by omega)
      have h4 : -q * (m - 1) = -(q * m) + q := by ring
      omega
  cases h with
  | yes _ h => simp at h hty; omega
  | no _ h => simp at h hty; omega
  | number _ h => simp at h hty; omega
  | zero => rw [if_pos rfl]; exact zeroText_shows h1 h2
  | base _ _ _ h => simp at h hty; omega
  | size _ _ _ q hn e letter hl hqn hmax =>
    rw [if_neg hn]
    have hne : ∀ l, (0 : UInt8) ∉ l → (0 : UInt8) ∉ Spec.numText q ++ l ++ ascii " (" ++ Spec.numText n ++ ascii ")" :=
      fun l hl => based_ne (numText_ne q) hl
    have key : ∀ (m : Int), 0 < m → n = q * m → n.tdiv m = q := by
      intro m hm he
      rw [he]
      exact Int.mul_tdiv_cancel q (by omega)
    simp only [List.mem_cons, Prod.mk.injEq, List.mem_nil_iff, or_false] at hl
    rcases hl with ⟨rfl, rfl⟩ | ⟨rfl, rfl⟩ | ⟨rfl, rfl⟩
    · have hm : ¬ (1024 * 1024 : Int) ∣ n := by simpa using hmax
      have hg : ¬ (1024 * 1024 * 1024 : Int) ∣ n := fun h => hm (Int.dvd_trans (by decide) h)
      rw [if_neg hg, if_neg hm, if_pos (by rw [hqn]; exact ⟨q, by omega⟩), key 1024 (by omega) (by omega), hf n (.inl rfl),
        hq q 1024 (by omega) (by omega)]
      have := printText_shows (hne (ascii "k") (by decide)) (by omega) h2
      simpa [ascii, List.append_assoc] using this
    · have hg : ¬ (1024 * 1024 * 1024 : Int) ∣ n := by simpa using hmax
      rw [if_neg hg, if_pos (by rw [hqn]; exact ⟨q, by omega⟩), key (1024 * 1024) (by omega) (by omega), hf n (.inl rfl),
        hq q (1024 * 1024) (by omega) (by omega)]
      have := printText_shows (hne (ascii "m") (by decide)) (by omega) h2
      simpa [ascii, List.append_assoc] using this
    · rw [if_pos (by rw [hqn]; exact ⟨q, by omega⟩), key (1024 * 1024 * 1024) (by omega) (by omega), hf n (.inl rfl),
        hq q (1024 * 1024 * 1024) (by omega) (by omega)]
      have := printText_shows (hne (ascii "g") (by decide)) (by omega) h2
      simpa [ascii, List.append_assoc] using this
  | odd _ _ _ hn =>
    have hk : ¬ (1024 : Int) ∣ n := by simpa using hn
    have h0 : n ≠ 0 := by rintro rfl; exact hk ⟨0, by simp⟩
    rw [if_neg h0, if_neg (fun h => hk (Int.dvd_trans (by decide) h)), if_neg (fun h => hk (Int.dvd_trans (by decide) h)), if_neg hk,
      hf n (.inl rfl)]
    exact printText_shows (numText_ne n) (by omega) h2

theorem toSigned_self {q : Int} (h1 : -2 ^ 63 ≤ q) (h2 : q < 2 ^ 63) : toSigned 64 q = q := by
  unfold toSigned
  apply Int.bmod_eq_of_le <;> omega

/-- **C116.** A buffer of at least two octets gets the text of the value, cut to what fits, and a NUL; nothing is written beyond
the size that was given, and the length is that of the text.  (Partial: characters and strings are not terminated, see
`C116_terminated_violated`; unsigned sizes from 2⁶³ on are shown as negative numbers.) -/
theorem C116_shown_partial {real : Bool → Nat → List UInt8} (hr : ∀ k r, (0 : UInt8) ∉ real k r) {ty : Nat} {v : AVal} {t : List UInt8}
    (hv : Spec.IsOf ty v) (h : Spec.Displayed real ty v t) (hu : ty = 19 → ∀ n, v = .num n → n < 2 ^ 63) {mem : List UInt8} {size : Nat}
    (h1 : 2 ≤ size) (h2 : size ≤ mem.length) :
    ∃ mem' len, valueToString real ty v mem size = ok (mem', len) ∧ Spec.Shows mem mem' size t len := by
  have h1' : 1 ≤ size := by omega
  have hall := h
  cases h with
  | yes _ hty n hn =>
    simp only [List.mem_cons, List.mem_nil_iff, or_false] at hty
    rcases hty with rfl | rfl | rfl | rfl | rfl | rfl <;>
      (rw [valueToString]; rw [if_pos hn]; exact copyText_shows (by decide) h1' h2)
  | no _ hty =>
    simp only [List.mem_cons, List.mem_nil_iff, or_false] at hty
    rcases hty with rfl | rfl | rfl | rfl | rfl | rfl <;>
      (rw [valueToString]; exact copyText_shows (by decide) h1' h2)
  | null => rw [valueToString]; exact copyText_shows (by decide) h1' h2
  | number _ hty n =>
    simp only [List.mem_cons, List.mem_nil_iff, or_false] at hty
    rcases hty with rfl | rfl | rfl | rfl | rfl | rfl | rfl <;>
      (rw [valueToString]; first | rw [fmtI_eq] | rw [fmtU_num hv.1]) <;> exact printText_shows (numText_ne n) h1' h2
  | float r => rw [valueToString]; exact printText_shows (hr _ _) h1' h2
  | double r => rw [valueToString]; exact printText_shows (hr _ _) h1' h2
  | zero _ hty =>
    simp only [List.mem_cons, List.mem_nil_iff, or_false] at hty
    rcases hty with rfl | rfl | rfl | rfl | rfl
    · rw [valueToString]; exact copyText_shows (by decide) h1' h2
    · rw [valueToString, if_pos rfl]; exact copyText_shows (by decide) h1' h2
    · rw [valueToString, if_pos rfl]; exact zeroText_shows h1 h2
    · rw [valueToString, sizeText, if_pos rfl]; exact zeroText_shows h1 h2
    · rw [valueToString, sizeText, if_pos rfl]; exact zeroText_shows h1 h2
  | base _ b pre hb n hn ds hd =>
    simp only [List.mem_cons, Prod.mk.injEq, List.mem_nil_iff, or_false] at hb
    rcases hb with ⟨rfl, rfl, rfl⟩ | ⟨rfl, rfl, rfl⟩ | ⟨rfl, rfl, rfl⟩ <;> obtain ⟨m1, m2⟩ := emod_ne hn hv.1 hv.2
    · have : ds = bitLoop (n % 2 ^ 32).toNat 32 false := by
        rw [numeral_unique 2 (by omega) (by omega) _ _ hd, ← numeral_unique 2 (by omega) (by omega) _ _ (bitLoop_numeral m1 m2)]
      rw [valueToString, if_neg hn, ← this, fmtI_eq]
      exact copyText_shows (based_ne (by decide) (numeral_ne hd)) h1' h2
    · rw [valueToString, if_neg hn, ← numeral_unique 8 (by omega) (by omega) _ _ hd, fmtI_eq]
      exact printText_shows (based_ne (by decide) (numeral_ne hd)) h1' h2
    · rw [valueToString, if_neg hn, ← numeral_unique 16 (by omega) (by omega) _ _ hd, fmtI_eq]
      exact printText_shows (based_ne (by decide) (numeral_ne hd)) h1' h2
  | size _ hty n q hn e letter hl hq hmax =>
    have hty' := hty
    simp only [List.mem_cons, List.mem_nil_iff, or_false] at hty
    rcases hty with rfl | rfl
    · rw [valueToString]
      exact sizeText_shows hty' hall (fun q _ => fmtI_eq q) h1 h2
    · rw [valueToString]
      refine sizeText_shows hty' hall (fun q hq => ?_) h1 h2
      have := hu rfl n rfl
      have hv1 := hv.1
      rw [toSigned_self (by omega) (by omega), fmtI_eq]
  | odd _ hty n hn =>
    have hty' := hty
    simp only [List.mem_cons, List.mem_nil_iff, or_false] at hty
    rcases hty with rfl | rfl
    · rw [valueToString]
      exact sizeText_shows hty' hall (fun q _ => fmtI_eq q) h1 h2
    · rw [valueToString]
      refine sizeText_shows hty' hall (fun q hq => ?_) h1 h2
      have := hu rfl n rfl
      have hv1 := hv.1
      rw [toSigned_self (by omega) (by omega), fmtI_eq]

/-- **C116.** Every value of a type, but for characters and strings, has a text. -/
theorem C116_every (real : Bool → Nat → List UInt8) {ty : Nat} {v : AVal} (hv : Spec.IsOf ty v) (h4 : ty ≠ 4) (h5 : ty = 5 → v = .str none) :
    ∃ t, Spec.Displayed real ty v t := by
  have truth : ∀ ty ∈ [1, 2, 3, 20, 21, 22], ∀ n, ∃ t, Spec.Displayed real ty (.num n) t := by
    intro ty h n
    by_cases hn : n = 0
    · subst hn; exact ⟨_, .no ty h⟩
    · exact ⟨_, .yes ty h n hn⟩
  have num : ∀ ty ∈ [6, 7, 8, 9, 10, 11, 17], ∀ n, ∃ t, Spec.Displayed real ty (.num n) t := fun ty h n => ⟨_, .number ty h n⟩
  have base : ∀ ty b pre, (ty, b, pre) ∈ [(14, 2, ascii "0b"), (15, 8, ascii "0"), (16, 16, ascii "0x")] → ∀ n : Int, -2 ^ 31 ≤ n ∧ n < 2 ^ 31 →
      ∃ t, Spec.Displayed real ty (.num n) t := by
    intro ty b pre h n hn
    by_cases h0 : n = 0
    · subst h0
      refine ⟨_, .zero ty ?_⟩
      simp at h ⊢; omega
    · obtain ⟨m1, -⟩ := emod_ne h0 hn.1 hn.2
      refine ⟨_, .base ty b pre h n h0 _ (fmtBase_numeral b ?_ ?_ _ m1)⟩ <;> simp at h <;> omega
  have size : ∀ ty ∈ [18, 19], ∀ n : Int, ∃ t, Spec.Displayed real ty (.num n) t := by
    intro ty h n
    by_cases h0 : n = 0
    · subst h0; exact ⟨_, .zero ty (by simp at h ⊢; omega)⟩
    · by_cases hk : (2 ^ 10 : Int) ∣ n
      · by_cases hm : (2 ^ 20 : Int) ∣ n
        · by_cases hg : (2 ^ 30 : Int) ∣ n
          · obtain ⟨q, hq⟩ := hg
            exact ⟨_, .size ty h n q h0 30 (ascii "g") (by simp) (by rw [hq]; ring) (.inl rfl)⟩
          · obtain ⟨q, hq⟩ := hm
            exact ⟨_, .size ty h n q h0 20 (ascii "m") (by simp) (by rw [hq]; ring) (.inr hg)⟩
        · obtain ⟨q, hq⟩ := hk
          exact ⟨_, .size ty h n q h0 10 (ascii "k") (by simp) (by rw [hq]; ring) (.inr hm)⟩
      · exact ⟨_, .odd ty h n hk⟩
  unfold Spec.IsOf at hv
  split at hv
  · exact truth _ (by simp) _
  · exact truth _ (by simp) _
  · exact truth _ (by simp) _
  · exact absurd rfl h4
  · exact ⟨_, .null⟩
  · cases h5 rfl
  · exact num _ (by simp) _
  · exact num _ (by simp) _
  · exact num _ (by simp) _
  · exact num _ (by simp) _
  · exact num _ (by simp) _
  · exact num _ (by simp) _
  · exact ⟨_, .float _⟩
  · exact ⟨_, .double _⟩
  · exact base 14 2 (ascii "0b") (by simp) _ hv
  · exact base 15 8 (ascii "0") (by simp) _ hv
  · exact base 16 16 (ascii "0x") (by simp) _ hv
  · exact num _ (by simp) _
  · exact size _ (by simp) _
  · exact size _ (by simp) _
  · exact truth _ (by simp) _
  · exact truth _ (by simp) _
  · exact truth _ (by simp) _
  · exact hv.elim

/-- **C116.** A type that is not known is shown as such, whatever the variable holds. -/
theorem C116_unknown (real : Bool → Nat → List UInt8) {ty : Nat} (h : ty = 0 ∨ 22 < ty) (v : AVal) {mem : List UInt8} {size : Nat}
    (h1 : 1 ≤ size) (h2 : size ≤ mem.length) :
    ∃ mem' len, valueToString real ty v mem size = ok (mem', len) ∧ Spec.Shows mem mem' size (ascii "(unknown)") len := by
  have : valueToString real ty v mem size = copyText mem size (ascii "(unknown)") := by
    unfold valueToString
    split <;> first | omega | (rw [if_pos (by omega)])
  rw [this]
  exact copyText_shows (by decide) h1 h2

/-! #### Characters and strings -/

theorem expandBuf_inside (size : Nat) : ∀ (cs mem : List UInt8) (o : Nat), o + 1 ≤ size → size ≤ mem.length →
    ∃ mem' o', expandBuf size cs mem o = ok (mem', o') ∧ mem'.length = mem.length ∧ mem'.drop size = mem.drop size ∧ o' + 1 ≤ size := by
  intro cs
  induction cs with
  | nil => intro mem o h1 h2; exact ⟨mem, o, rfl, rfl, rfl, h1⟩
  | cons c cs ih =>
    intro mem o h1 h2
    have step : ∀ (bs : List UInt8) (k : Nat), bs.length ≤ k → o + k < size →
        ∃ mem' o', (poke mem o bs >>= fun mem => expandBuf size cs mem (o + k)) = ok (mem', o') ∧ mem'.length = mem.length ∧
          mem'.drop size = mem.drop size ∧ o' + 1 ≤ size := by
      intro bs k hb hk
      have hp := poke_ok (mem := mem) (i := o) (bs := bs) (by omega)
      obtain ⟨l1, l2⟩ := poke_len hp
      rw [hp, ok_bind]
      obtain ⟨mem', o', a, b, d, e⟩ := ih _ (o + k) (by omega) (by rw [l1]; exact h2)
      exact ⟨mem', o', a, by rw [b, l1], by rw [d, l2 size (by omega)], e⟩
    rw [expandBuf]
    split
    · split
      · exact ⟨mem, o, rfl, rfl, rfl, h1⟩
      · rename_i hlt
        exact step _ 2 (by simp) (by omega)
    · split
      · split
        · exact ⟨mem, o, rfl, rfl, rfl, h1⟩
        · rename_i hlt
          exact step _ 1 (by simp) (by omega)
      · split
        · exact ⟨mem, o, rfl, rfl, rfl, h1⟩
        · rename_i hlt
          exact step _ 4 (by simp) (by omega)

/-- **C116.** Whatever the value, nothing is written beyond the size that was given, and the length is less than it. -/
theorem C116_inside {real : Bool → Nat → List UInt8} (hr : ∀ k r, (0 : UInt8) ∉ real k r) {ty : Nat} {v : AVal} (hv : Spec.IsOf ty v)
    {mem : List UInt8} {size : Nat} (h1 : 2 ≤ size) (h2 : size ≤ mem.length) :
    ∃ mem' len, valueToString real ty v mem size = ok (mem', len) ∧ mem'.length = mem.length ∧ mem'.drop size = mem.drop size ∧ len < size := by
  have done : ∀ {t x}, (∃ mem' len, x = ok (mem', len) ∧ Spec.Shows mem mem' size t len) →
      ∃ mem' len, x = ok (mem', len) ∧ mem'.length = mem.length ∧ mem'.drop size = mem.drop size ∧ len < size := by
    rintro t x ⟨mem', len, e, a, b, c, d⟩
    exact ⟨mem', len, e, b, d, by omega⟩
  by_cases h4 : ty = 4
  · subst h4
    cases v with
    | chr c =>
      rw [valueToString]
      exact expandBuf_inside size [c] mem 0 (by omega) h2
    | _ => exact hv.elim
  · by_cases h5 : ty = 5 ∧ v ≠ .str none
    · obtain ⟨rfl, hne⟩ := h5
      cases v with
      | str s =>
        cases s with
        | none => exact absurd rfl hne
        | some s =>
          rw [valueToString]
          exact expandBuf_inside size s mem 0 (by omega) h2
      | _ => exact hv.elim
    · obtain ⟨t, ht⟩ := C116_every real hv h4 (fun h => by
        by_cases hs : v = .str none
        · exact hs
        · exact absurd ⟨h, hs⟩ h5)
      by_cases hu : ty = 19
      · subst hu
        cases v with
        | num n =>
          rw [valueToString]
          have hf : ∀ q, (0 : UInt8) ∉ fmtI (toSigned 64 q) := fun q => by rw [fmtI_eq]; exact numText_ne _
          have hp : ∀ q l, (0 : UInt8) ∉ l → (0 : UInt8) ∉ fmtI (toSigned 64 q) ++ l ++ fmtI (toSigned 64 n) ++ ascii ")" := by
            intro q l hl
            have := hf q
            have := hf n
            have : (0 : UInt8) ∉ ascii ")" := by decide
            simp only [List.mem_append]
            rintro (((h | h) | h) | h) <;> contradiction
          unfold sizeText
          split
          · exact done (zeroText_shows h1 h2)
          · split
            · exact done (printText_shows (hp _ _ (by decide)) (by omega) h2)
            · split
              · exact done (printText_shows (hp _ _ (by decide)) (by omega) h2)
              · split
                · exact done (printText_shows (hp _ _ (by decide)) (by omega) h2)
                · exact done (printText_shows (hf n) (by omega) h2)
        | _ => exact hv.elim
      · exact done (C116_shown_partial hr hv ht (fun h => absurd h hu) h1 h2)

theorem find_special {c : UInt8} (h : Spec.plainChar c) : specialChars.find? (fun p => p.2 = c) = none := by
  rw [List.find?_eq_none]
  intro p hp hpc
  have hpc : p.2 = c := by simpa using hpc
  have : ∀ p ∈ specialChars, p.2.toNat < 32 ∨ p.2 ∈ ascii "^\"'\\" := by decide
  rcases this p hp with h' | h'
  · rw [hpc] at h'
    have := h.1
    omega
  · rw [hpc] at h'
    exact h.2.2 h'

theorem expandBuf_plain (size : Nat) : ∀ (cs mem : List UInt8) (o : Nat), (∀ c ∈ cs, Spec.plainChar c) → o + 1 ≤ size → size ≤ mem.length →
    expandBuf size cs mem o = ok (mem.take o ++ cs.take (size - 1 - o) ++ mem.drop (o + min cs.length (size - 1 - o)),
      o + min cs.length (size - 1 - o)) := by
  intro cs
  induction cs with
  | nil => intro mem o _ h1 h2; simp [expandBuf]
  | cons c cs ih =>
    intro mem o hp h1 h2
    have hc := hp c (by simp)
    rw [expandBuf, find_special hc]
    dsimp only
    rw [if_pos ⟨hc.1, by have := hc.2.1; omega⟩]
    by_cases hlt : o + 1 ≥ size
    · rw [if_pos hlt]
      have : size - 1 - o = 0 := by omega
      rw [this]
      simp
    · rw [if_neg hlt, poke_ok (by simp; omega), ok_bind]
      rw [ih _ (o + 1) (fun c h => hp c (by simp [h])) (by omega) (by
        simp only [List.length_append, List.length_take, List.length_drop, List.length_singleton]; omega)]
      have e1 : (mem.take o ++ [c] ++ mem.drop (o + [c].length)).take (o + 1) = mem.take o ++ [c] := by
        rw [List.take_append_of_le_length (by simp; omega), List.take_of_length_le (by simp)]
      have hn : size - 1 - o = (size - 1 - (o + 1)) + 1 := by omega
      have e2 : ∀ k, (mem.take o ++ [c] ++ mem.drop (o + [c].length)).drop (o + 1 + k) = mem.drop (o + 1 + k) := by
        intro k
        rw [List.drop_append, List.drop_eq_nil_of_le (by simp; omega), List.drop_drop]
        simp only [List.length_append, List.length_take, List.length_singleton, List.nil_append]
        congr 1
        omega
      rw [e1, e2, hn, List.take_succ_cons, List.length_cons]
      simp only [List.append_assoc, List.singleton_append]
      have hm : o + 1 + min cs.length (size - 1 - (o + 1)) = o + min (cs.length + 1) (size - 1 - (o + 1) + 1) := by omega
      rw [hm]

/-- A string of which all characters are shown as they are, or such a character. -/
inductive Spec.AsIs : Nat → AVal → List UInt8 → Prop
  | char (c : UInt8) (h : Spec.plainChar c) : Spec.AsIs 4 (.chr c) [c]
  | text (s : List UInt8) (h : ∀ c ∈ s, Spec.plainChar c) : Spec.AsIs 5 (.str (some s)) s

/-- **C116.** A text of printable characters, none of them `^"'\`, is written as it is, cut to what fits, *without* a NUL:
what was in the buffer behind it is still there. -/
theorem C116_plain_partial {real : Bool → Nat → List UInt8} {ty : Nat} {v : AVal} {s : List UInt8} (h : Spec.AsIs ty v s)
    {mem : List UInt8} {size : Nat} (h1 : 1 ≤ size) (h2 : size ≤ mem.length) :
    valueToString real ty v mem size = ok (s.take (size - 1) ++ mem.drop (min s.length (size - 1)), min s.length (size - 1)) := by
  cases h with
  | char c h =>
    rw [valueToString, expandBuf_plain size [c] mem 0 (by simpa using h) (by omega) h2]
    simp
  | text s h =>
    rw [valueToString, expandBuf_plain size s mem 0 h (by omega) h2]
    simp

/-- **C116 is false** for characters and strings: a buffer without a NUL has none afterwards, so the text does not end. -/
theorem C116_terminated_violated {real : Bool → Nat → List UInt8} {ty : Nat} {v : AVal} {s : List UInt8} (h : Spec.AsIs ty v s)
    {mem : List UInt8} {size : Nat} (h1 : 1 ≤ size) (h2 : size ≤ mem.length) (h0 : (0 : UInt8) ∉ mem) :
    ∃ mem' len, valueToString real ty v mem size = ok (mem', len) ∧ (0 : UInt8) ∉ mem' := by
  refine ⟨_, _, C116_plain_partial h h1 h2, ?_⟩
  rw [List.mem_append]
  rintro (hm | hm)
  · have := List.mem_of_mem_take hm
    have hp : Spec.plainChar 0 := by
      cases h with
      | char c h => simp at this; rw [this]; exact h
      | text s h => exact h 0 this
    have := hp.1
    simp at this
  · exact h0 (List.mem_of_mem_drop hm)

/-- **C116 is false** for special characters: of `\n`, `\t`, `\"`, … only the backslash is left, all of them are shown alike. -/
theorem C116_escape_violated (real : Bool → Nat → List UInt8) {c : UInt8} (hc : c ∈ [7, 8, 9, 10, 12, 13, 27] ∨ c ∈ ascii "^\"'\\")
    {mem : List UInt8} {size : Nat} (h1 : 3 ≤ size) (h2 : size ≤ mem.length) :
    valueToString real 4 (.chr c) mem size = ok (92 :: 0 :: mem.drop 2, 2) := by
  rw [valueToString, expandBuf]
  have : ∀ c : UInt8, c ∈ [7, 8, 9, 10, 12, 13, 27] ∨ c ∈ ascii "^\"'\\" → ∃ l, specialChars.find? (fun p => p.2 = c) = some (l, c) := by
    intro c hc
    have e : ascii "^\"'\\" = [94, 34, 39, 92] := by decide
    rw [e] at hc
    simp only [List.mem_cons, List.mem_nil_iff, or_false] at hc
    rcases hc with (rfl | rfl | rfl | rfl | rfl | rfl | rfl) | (rfl | rfl | rfl | rfl) <;> exact ⟨_, rfl⟩
  obtain ⟨l, hl⟩ := this c hc
  rw [hl]
  dsimp only
  rw [if_neg (by omega)]
  unfold snprintfAt
  rw [if_neg (by omega)]
  have e : List.take (2 - 1) [92, l] ++ [(0 : UInt8)] = [92, 0] := rfl
  rw [e, poke_ok (by simp; omega), ok_bind, expandBuf]
  rfl

/-- **C116 is false** for characters that cannot be printed (control characters, DEL, everything above 127): of the three
octal digits the last is lost, so that eight characters each are shown alike. -/
theorem C116_octal_violated (real : Bool → Nat → List UInt8) {c : UInt8}
    (hc : (c.toNat < 32 ∨ 127 ≤ c.toNat) ∧ c ∉ ([7, 8, 9, 10, 12, 13, 27] : List UInt8)) {mem : List UInt8} {size : Nat}
    (h1 : 5 ≤ size) (h2 : size ≤ mem.length) :
    valueToString real 4 (.chr c) mem size =
      ok (92 :: UInt8.ofNat (48 + c.toNat / 64) :: UInt8.ofNat (48 + c.toNat / 8 % 8) :: 0 :: mem.drop 4, 4) := by
  rw [valueToString, expandBuf]
  have : ∀ n < 256, ((UInt8.ofNat n).toNat < 32 ∨ 127 ≤ (UInt8.ofNat n).toNat) ∧
      UInt8.ofNat n ∉ ([7, 8, 9, 10, 12, 13, 27] : List UInt8) → specialChars.find? (fun p => p.2 = UInt8.ofNat n) = none := by
    decide +kernel
  have hn := this c.toNat c.toNat_lt
  rw [UInt8.ofNat_toNat] at hn
  rw [hn hc]
  dsimp only
  rw [if_neg (by omega), if_neg (by omega)]
  unfold snprintfAt
  rw [if_neg (by omega)]
  have e : ∀ x y z : UInt8, List.take (4 - 1) (92 :: [x, y, z]) ++ [(0 : UInt8)] = [92, x, y, 0] := fun _ _ _ => rfl
  rw [e, poke_ok (by simp; omega), ok_bind, expandBuf]
  rfl

example : valueToString (fun _ _ => []) 4 (.chr 127) (List.replicate 9 1) 9 = ok (ascii "\\17" ++ [0, 1, 1, 1, 1, 1], 4) := by
  decide +kernel

/-- **C116 is false** for a buffer of one octet: a size of 0 (or a hexadecimal 0) is written with its NUL. -/
theorem C116_one_octet_violated (real : Bool → Nat → List UInt8) {ty : Nat} (h : ty ∈ [16, 18, 19]) (x : UInt8) :
    valueToString real ty (.num 0) [x] 1 = ub := by
  simp only [List.mem_cons, List.mem_nil_iff, or_false] at h
  rcases h with rfl | rfl | rfl <;> rfl

/-- **C116 is false** for large unsigned sizes: they are shown as negative numbers. -/
theorem C116_negative_violated (real : Bool → Nat → List UInt8) {n : Int} (h1 : 2 ^ 63 ≤ n) (h2 : n < 2 ^ 64) (ho : ¬ (2 ^ 10 : Int) ∣ n)
    {mem : List UInt8} {size : Nat} (hs : 2 ≤ size) (hm : size ≤ mem.length) :
    ∃ mem' len, valueToString real 19 (.num n) mem size = ok (mem', len) ∧ Spec.Shows mem mem' size (Spec.numText (n - 2 ^ 64)) len := by
  have hk : ¬ (1024 : Int) ∣ n := by simpa using ho
  rw [valueToString]
  unfold sizeText
  simp only [tmod_iff]
  rw [if_neg (by omega), if_neg (fun h => hk (Int.dvd_trans (by decide) h)), if_neg (fun h => hk (Int.dvd_trans (by decide) h)), if_neg hk]
  have : toSigned 64 n = n - 2 ^ 64 := by
    unfold toSigned
    rw [Int.bmod_def]
    have : n % ((2 ^ 64 : Nat) : Int) = n := Int.emod_eq_of_lt (by omega) (by simpa using h2)
    rw [this, if_neg (by omega)]
    rfl
  rw [this, fmtI_eq]
  exact printText_shows (numText_ne _) (by omega) hm

/-! #### Arrays -/

theorem asIs_ne {ty : Nat} {v : AVal} {t : List UInt8} (h : Spec.AsIs ty v t) : (0 : UInt8) ∉ t := by
  intro h0
  have hp : Spec.plainChar 0 := by
    cases h with
    | char c h => simp at h0; rw [h0]; exact h
    | text s h => exact h 0 h0
  have := hp.1
  simp at this

theorem shown_ne {real : Bool → Nat → List UInt8} (hr : ∀ k r, (0 : UInt8) ∉ real k r) {ty : Nat} {v : AVal} {t : List UInt8}
    (h : Spec.Displayed real ty v t) : (0 : UInt8) ∉ t := by
  cases h with
  | yes => decide
  | no => decide
  | null => decide
  | number => exact numText_ne _
  | float => exact hr _ _
  | double => exact hr _ _
  | zero => decide
  | base _ b pre hb n hn ds hd =>
    refine based_ne ?_ (numeral_ne hd)
    simp only [List.mem_cons, Prod.mk.injEq, List.mem_nil_iff, or_false] at hb
    rcases hb with ⟨-, -, rfl⟩ | ⟨-, -, rfl⟩ | ⟨-, -, rfl⟩ <;> decide
  | size _ _ n q _ _ letter hl =>
    refine based_ne (numText_ne q) ?_
    simp only [List.mem_cons, Prod.mk.injEq, List.mem_nil_iff, or_false] at hl
    rcases hl with ⟨-, rfl⟩ | ⟨-, rfl⟩ | ⟨-, rfl⟩ <;> decide
  | odd => exact numText_ne _

theorem details_eq {mem d : List UInt8} {size len : Nat} (h1 : len < size) (h2 : size ≤ mem.length) :
    strncpyAt mem len (size - len) d = strncpyAt mem 0 size (mem.take len ++ d) := by
  unfold strncpyAt
  have hF : (d.take (size - len) ++ List.replicate (size - len - d.length) (0 : UInt8)).length = size - len := by
    simp only [List.length_append, List.length_take, List.length_replicate]; omega
  have hT : (mem.take len).length = len := by rw [List.length_take]; omega
  have hG : ((mem.take len ++ d).take size ++ List.replicate (size - (mem.take len ++ d).length) (0 : UInt8)).length = size := by
    simp only [List.length_append, List.length_take, List.length_replicate]; omega
  rw [poke_ok (by rw [hF]; omega), poke_ok (by rw [hG]; omega), hF, hG]
  congr 1
  rw [List.take_zero, List.nil_append, Nat.zero_add, show len + (size - len) = size by omega]
  congr 1
  rw [List.take_append (l₁ := mem.take len), List.take_of_length_le (l := mem.take len) (by omega), hT, List.append_assoc]
  congr 2
  rw [List.length_append, hT, Nat.sub_sub]

/-- **C116.** Of several values in an array, the first is shown, and how many there are; the text has a NUL at its end, even
if the values are strings. -/
theorem C116_array_partial {real : Bool → Nat → List UInt8} (hr : ∀ k r, (0 : UInt8) ∉ real k r) {e : AEntry} {v w : AVal} {vs : List AVal}
    (ha : e.array = true) (he : e.var = some (.many (v :: w :: vs))) {t : List UInt8}
    (ht : Spec.AsIs e.ty v t ∨ Spec.IsOf e.ty v ∧ Spec.Displayed real e.ty v t ∧ (e.ty = 19 → ∀ n, v = .num n → n < 2 ^ 63))
    {mem : List UInt8} {size : Nat} (h1 : 2 ≤ size) (h2 : size ≤ mem.length) :
    ∃ mem' len, argvValueString real e mem size = ok (mem', len) ∧
      Spec.Shows mem mem' size (t ++ ascii " (1st of " ++ decText (vs.length + 2) ++ ascii " entries)") len := by
  have hfirst : ∃ mem1, valueToString real e.ty v mem size = ok (mem1, min t.length (size - 1)) ∧ mem1.length = mem.length ∧
      mem1.take (min t.length (size - 1)) = t.take (size - 1) ∧ mem1.drop size = mem.drop size ∧ (0 : UInt8) ∉ t := by
    rcases ht with ht | ⟨h3, h4, h5⟩
    · refine ⟨_, C116_plain_partial ht (by omega) h2, ?_, ?_, ?_, ?_⟩
      · simp only [List.length_append, List.length_take, List.length_drop]; omega
      · rw [List.take_append_of_le_length (by rw [List.length_take]; omega), List.take_of_length_le (by rw [List.length_take]; omega)]
      · rw [List.drop_append, List.drop_eq_nil_of_le (by rw [List.length_take]; omega), List.nil_append, List.drop_drop, List.length_take]
        congr 1
        omega
      · exact asIs_ne ht
    · obtain ⟨mem1, len, a, b, c, d, f⟩ := C116_shown_partial hr h3 h4 h5 h1 h2
      subst b
      refine ⟨mem1, a, c, ?_, f, ?_⟩
      · have := congrArg (List.take (min t.length (size - 1))) d
        rw [List.take_take, Nat.min_eq_left (by omega)] at this
        rw [this, List.take_append_of_le_length (by rw [List.length_take]; omega), List.take_of_length_le (by rw [List.length_take]; omega)]
      · exact shown_ne hr h4
  obtain ⟨mem1, a1, a2, a3, a4, a5⟩ := hfirst
  have hd : (0 : UInt8) ∉ ascii " (1st of " ++ decText (vs.length + 2) ++ ascii " entries)" := by
    have e1 : (0 : UInt8) ∉ ascii " (1st of " := by decide
    have e2 : (0 : UInt8) ∉ ascii " entries)" := by decide
    have e3 : (0 : UInt8) ∉ decText (vs.length + 2) := by
      intro h
      have := (decText_isDecimal (vs.length + 2)).2.1 0 h
      unfold IsDigit at this
      simp at this
    simp only [List.mem_append]
    rintro ((h | h) | h)
    exacts [e1 h, e3 h, e2 h]
  obtain ⟨d, hD⟩ : ∃ d, ascii " (1st of " ++ decText (vs.length + 2) ++ ascii " entries)" = d := ⟨_, rfl⟩
  rw [hD] at hd
  have hrun : argvValueString real e mem size = copyText mem1 size (t.take (size - 1) ++ d) := by
    unfold argvValueString copyText
    rw [ha, he]
    dsimp only
    rw [a1, ok_bind]
    dsimp only
    rw [fmtU_eq, List.length_cons, Nat.add_assoc, hD, details_eq (by omega) (by omega), a3]
  obtain ⟨mem', len, b1, b2, b3, b4, b5⟩ := copyText_shows (mem := mem1) (t := t.take (size - 1) ++ d) (size := size)
    (by rw [List.mem_append]; rintro (h | h); exacts [a5 (List.mem_of_mem_take h), hd h]) (by omega) (by omega)
  refine ⟨mem', len, by rw [hrun, b1], ?_⟩
  have hlen : min (t.take (size - 1) ++ d).length (size - 1) = min (t ++ d).length (size - 1) := by
    simp only [List.length_append, List.length_take]; omega
  have htake : (t.take (size - 1) ++ d).take (size - 1) = (t ++ d).take (size - 1) := by
    rw [List.take_append, List.take_append, List.take_take, Nat.min_self, List.length_take]
    congr 2
    omega
  have hassoc : t ++ ascii " (1st of " ++ decText (vs.length + 2) ++ ascii " entries)" = t ++ d := by
    rw [← hD]; simp only [List.append_assoc]
  rw [hassoc]
  exact ⟨by rw [b2, hlen], by rw [b3, a2], by rw [b4, htake], by rw [b5, a4]⟩

/-- **C116.** One value is shown as such, in an array as well, and an empty array as such. -/
theorem C116_entry (real : Bool → Nat → List UInt8) (e : AEntry) (v : AVal) (h : e.array = false ∧ e.var = some (.one v) ∨ e.array = true ∧ e.var = some (.many [v]))
    (mem : List UInt8) (size : Nat) : argvValueString real e mem size = valueToString real e.ty v mem size := by
  unfold argvValueString
  rcases h with ⟨h1, h2⟩ | ⟨h1, h2⟩ <;> rw [h1, h2]

/-- See `C116_entry`. -/
theorem C116_empty_array (real : Bool → Nat → List UInt8) {e : AEntry} (ha : e.array = true) (he : e.var = some (.many []))
    {mem : List UInt8} {size : Nat} (h1 : 1 ≤ size) (h2 : size ≤ mem.length) :
    ∃ mem' len, argvValueString real e mem size = ok (mem', len) ∧ Spec.Shows mem mem' size (ascii "0 array entries") len := by
  unfold argvValueString
  rw [ha, he]
  exact copyText_shows (by decide) h1 h2
end Wdns
