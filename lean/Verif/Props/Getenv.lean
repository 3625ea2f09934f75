import Verif.Spec.Getenv
import Verif.Lemmas.Ubuf

/-!
# C105, C106: small headers of libmy
-/

namespace Wdns
open Outcome Wdns.Spec

theorem digit_iff (b : Nat) (c : UInt8) (v : Nat) : CDigit b c v ↔ hexDigitValue c = some v ∧ v < b := by
  constructor
  · intro h
    cases h with
    | dec v h hb => exact ⟨(by decide : ∀ v < 10, hexDigitValue (UInt8.ofNat (48 + v)) = some v) v h, hb⟩
    | low v h hb => exact ⟨(by decide : ∀ v < 6, hexDigitValue (UInt8.ofNat (97 + v)) = some (10 + v)) v h, hb⟩
    | up v h hb => exact ⟨(by decide : ∀ v < 6, hexDigitValue (UInt8.ofNat (65 + v)) = some (10 + v)) v h, hb⟩
  · rintro ⟨h, hb⟩
    have hc : c = UInt8.ofNat c.toNat := by simp
    unfold hexDigitValue at h
    split at h
    · cases h
      have := CDigit.dec (b := b) (c.toNat - 48) (by omega) hb
      rwa [show 48 + (c.toNat - 48) = c.toNat by omega, ← hc] at this
    · split at h
      · cases h
        have := CDigit.low (b := b) (c.toNat - 97) (by omega) (by omega)
        rwa [show 97 + (c.toNat - 97) = c.toNat by omega, ← hc, show 10 + (c.toNat - 97) = c.toNat - 87 by omega] at this
      · split at h
        · cases h
          have := CDigit.up (b := b) (c.toNat - 65) (by omega) (by omega)
          rwa [show 65 + (c.toNat - 65) = c.toNat by omega, ← hc, show 10 + (c.toNat - 65) = c.toNat - 55 by omega] at this
        · cases h

theorem isDigitIn_iff (b : Nat) (c : UInt8) : isDigitIn b c = true ↔ ∃ v, CDigit b c v := by
  unfold isDigitIn
  simp only [digit_iff]
  cases hexDigitValue c with
  | none => simp
  | some v => simp

theorem digitsValue_snoc (b : Nat) (ds : List UInt8) (c : UInt8) : digitsValue b (ds ++ [c]) = digitsValue b ds * b + (hexDigitValue c).getD 0 := by
  simp [digitsValue, List.foldl_append]

theorem digits_of {b : Nat} {ds : List UInt8} {n : Nat} (h : CDigits b ds n) : (∀ c ∈ ds, isDigitIn b c = true) ∧ digitsValue b ds = n := by
  induction h with
  | nil => exact ⟨by simp, rfl⟩
  | snoc h hc ih =>
    refine ⟨fun c hm => ?_, ?_⟩
    · rcases List.mem_append.mp hm with hm | hm
      · exact ih.1 c hm
      · simp only [List.mem_singleton] at hm
        exact hm ▸ (isDigitIn_iff _ _).mpr ⟨_, hc⟩
    · rw [digitsValue_snoc, ih.2, ((digit_iff _ _ _).mp hc).1]; rfl

theorem digits_to {b : Nat} : ∀ (k : Nat) (ds : List UInt8), ds.length = k → (∀ c ∈ ds, isDigitIn b c = true) → CDigits b ds (digitsValue b ds) := by
  intro k
  induction k with
  | zero => intro ds hk _; rw [List.length_eq_zero_iff.mp hk]; exact .nil
  | succ k ih =>
    intro ds hk h
    have hne : ds ≠ [] := by intro e; rw [e] at hk; cases hk
    have e : ds = ds.dropLast ++ [ds.getLast hne] := (List.dropLast_concat_getLast hne).symm
    rw [e] at h ⊢
    rw [digitsValue_snoc]
    obtain ⟨v, hv⟩ := (isDigitIn_iff _ _).mp (h (ds.getLast hne) (by simp))
    rw [((digit_iff _ _ _).mp hv).1]
    exact .snoc (ih _ (by simp [hk]) (fun c hc => h c (by simp [hc]))) hv

theorem takeWhile_full {p : UInt8 → Bool} {l : List UInt8} (h : ∀ c ∈ l, p c = true) : l.takeWhile p = l := by
  induction l with
  | nil => rfl
  | cons c l ih => rw [List.takeWhile_cons, h c (by simp)]; simp [ih (fun c hc => h c (List.mem_cons_of_mem _ hc))]

theorem takeWhile_mem {p : UInt8 → Bool} {l : List UInt8} {c : UInt8} (h : c ∈ l.takeWhile p) : p c = true := by
  induction l with
  | nil => cases h
  | cons a l ih =>
    rw [List.takeWhile_cons] at h
    split at h
    · rcases List.mem_cons.mp h with rfl | h
      · assumption
      · exact ih h
    · cases h

theorem dropWhile_prefix {p : UInt8 → Bool} {ws t : List UInt8} (h : ∀ c ∈ ws, p c = true) (ht : t.head?.map p ≠ some true) : (ws ++ t).dropWhile p = t := by
  induction ws with
  | nil =>
    cases t with
    | nil => rfl
    | cons c t => simp at ht; simp [ht]
  | cons c ws ih => rw [List.cons_append, List.dropWhile_cons, h c (by simp)]; exact ih (fun c hc => h c (List.mem_cons_of_mem _ hc))

/-- Base and digits of a number. -/
theorem base_of {t : List UInt8} {n : Nat} (h : CNumber t n) : ∃ b ds, strtoulBase t = (b, ds) ∧ ds ≠ [] ∧ (∀ c ∈ ds, isDigitIn b c = true) ∧ digitsValue b ds = n := by
  cases h with
  | @hex x ds n hx hne hd =>
    obtain ⟨h1, h2⟩ := digits_of hd
    cases ds with
    | nil => exact absurd rfl hne
    | cons d ds =>
      refine ⟨16, d :: ds, ?_, by simp, h1, h2⟩
      rw [strtoulBase, if_pos ⟨hx, h1 d (by simp)⟩]
  | @oct ds n hd =>
    obtain ⟨h1, h2⟩ := digits_of hd
    have h0 : isDigitIn 8 48 = true := by decide
    refine ⟨8, 48 :: ds, ?_, by simp, ?_, ?_⟩
    · match ds, h1 with
      | [], _ => rfl
      | [_], _ => rfl
      | x :: d :: ds, h1 =>
        rw [strtoulBase, if_neg]
        rintro ⟨hx, -⟩
        have := h1 x (by simp)
        rcases hx with rfl | rfl <;> revert this <;> decide
    · intro c hc
      rcases List.mem_cons.mp hc with rfl | hc
      · exact h0
      · exact h1 c hc
    · rw [← h2]; rfl
  | @dec c ds n hc hd =>
    obtain ⟨h1, h2⟩ := digits_of hd
    refine ⟨10, c :: ds, ?_, by simp, h1, h2⟩
    unfold strtoulBase
    split
    · rename_i e; simp only [List.cons.injEq] at e; exact absurd e.1 hc
    · rename_i e; simp only [List.cons.injEq] at e; exact absurd e.1 hc
    · rfl

/-- And back: digits up to the end of the text are a number. -/
theorem base_to {t : List UInt8} {b : Nat} {ds : List UInt8} (h : strtoulBase t = (b, ds)) (hne : ds ≠ []) (hd : ∀ c ∈ ds, isDigitIn b c = true) :
    CNumber t (digitsValue b ds) := by
  unfold strtoulBase at h
  split at h
  · rename_i x d t'
    split at h
    · rename_i hx
      cases h
      exact .hex hx.1 (by simp) (digits_to _ _ rfl hd)
    · cases h
      exact .oct (digits_to _ _ rfl (fun c hc => hd c (List.mem_cons_of_mem _ hc)))
  · cases h
    exact .oct (digits_to _ _ rfl (fun c hc => hd c (List.mem_cons_of_mem _ hc)))
  · rename_i h1 h2
    cases h
    cases t with
    | nil => exact absurd rfl hne
    | cons c t =>
      refine .dec ?_ (digits_to _ _ rfl hd)
      intro e
      subst e
      exact h2 _ rfl

theorem number_head {t : List UInt8} {n : Nat} (h : CNumber t n) : ∃ c r, t = c :: r ∧ isDigitIn 10 c = true := by
  cases h with
  | hex => exact ⟨48, _, rfl, by decide⟩
  | oct => exact ⟨48, _, rfl, by decide⟩
  | dec hc hd => exact ⟨_, _, rfl, (digits_of hd).1 _ (by simp)⟩

theorem digit_head {c : UInt8} (h : isDigitIn 10 c = true) : isSpace c = false ∧ c ≠ 45 ∧ c ≠ 43 := by
  have : ∀ n < 256, isDigitIn 10 (UInt8.ofNat n) = true → isSpace (UInt8.ofNat n) = false ∧ UInt8.ofNat n ≠ 45 ∧ UInt8.ofNat n ≠ 43 := by decide +kernel
  have h2 := this c.toNat (by exact c.toNat_lt)
  rw [show UInt8.ofNat c.toNat = c by simp] at h2
  exact h2 h

/-- `strtoul` reads the whole text exactly if it is a number, or empty. -/
theorem strtoul0_iff (s : List UInt8) (v : Nat) : strtoul0 s = (v, []) ↔ (s = [] ∧ v = 0) ∨ CSigned s v := by
  constructor
  · intro h
    unfold strtoul0 at h
    dsimp only at h
    split at h
    · simp only [Prod.mk.injEq] at h; exact .inl ⟨h.2, h.1.symm⟩
    · rename_i hne
      right
      simp only [Prod.mk.injEq] at h
      obtain ⟨h1, h2⟩ := h
      generalize hsg : strtoulSign (s.dropWhile isSpace) = sg at *
      generalize hbs : strtoulBase sg.2 = bs at *
      have hall : bs.2.takeWhile (isDigitIn bs.1) = bs.2 := by
        have e := List.takeWhile_append_dropWhile (p := isDigitIn bs.1) (l := bs.2)
        have hl := congrArg List.length h2
        simp only [List.length_drop, List.length_nil] at hl
        have hl2 := congrArg List.length e
        simp only [List.length_append] at hl2
        have : bs.2.dropWhile (isDigitIn bs.1) = [] := List.length_eq_zero_iff.mp (by omega)
        rw [this, List.append_nil] at e
        exact e
      rw [hall] at hne h1
      have hd : ∀ c ∈ bs.2, isDigitIn bs.1 c = true := fun c hc => by
        rw [← hall] at hc
        exact takeWhile_mem hc
      have hnum := base_to (t := sg.2) (b := bs.1) (ds := bs.2) (by rw [hbs]) hne hd
      have hws : ∀ c ∈ s.takeWhile isSpace, isSpace c = true := fun c hc => takeWhile_mem hc
      have es : s = s.takeWhile isSpace ++ s.dropWhile isSpace := List.takeWhile_append_dropWhile.symm
      rw [es, ← h1]
      unfold strtoulSign at hsg
      split at hsg
      · rename_i t e
        rw [e]
        subst hsg
        simp only [if_true]
        exact .minus hws hnum
      · rename_i t e
        rw [e]
        subst hsg
        simp only [Bool.false_eq_true, if_false]
        have := CSigned.sign hws hnum
        rwa [show min (digitsValue bs.1 bs.2) (2 ^ 64 - 1) = if digitsValue bs.1 bs.2 ≥ 2 ^ 64 then 2 ^ 64 - 1 else digitsValue bs.1 bs.2 by split <;> omega] at this
      · subst hsg
        simp only [Bool.false_eq_true, if_false]
        have := CSigned.plus hws hnum
        rwa [show min (digitsValue bs.1 bs.2) (2 ^ 64 - 1) = if digitsValue bs.1 bs.2 ≥ 2 ^ 64 then 2 ^ 64 - 1 else digitsValue bs.1 bs.2 by split <;> omega] at this
  · rintro (⟨rfl, rfl⟩ | h)
    · rfl
    · have fin : ∀ {s : List UInt8} {neg : Bool} {t : List UInt8} {n : Nat}, CNumber t n → strtoulSign (s.dropWhile isSpace) = (neg, t) →
          strtoul0 s = (if n ≥ 2 ^ 64 then 2 ^ 64 - 1 else if neg then (2 ^ 64 - n) % 2 ^ 64 else n, []) := by
        intro s neg t n hn hs
        obtain ⟨b, ds, hb, hne, hd, hv⟩ := base_of hn
        unfold strtoul0
        dsimp only
        rw [hs]
        dsimp only
        rw [hb]
        dsimp only
        rw [takeWhile_full hd, if_neg hne, hv, List.drop_length]
      cases h with
      | @plus ws t n hws hn =>
        obtain ⟨c, r, rfl, hc⟩ := number_head hn
        obtain ⟨c1, c2, c3⟩ := digit_head hc
        rw [fin (neg := false) hn, show min n (2 ^ 64 - 1) = if n ≥ 2 ^ 64 then 2 ^ 64 - 1 else n by split <;> omega]
        · simp
        · rw [dropWhile_prefix hws (by simp [c1])]
          unfold strtoulSign
          split
          · rename_i e; simp only [List.cons.injEq] at e; exact absurd e.1 c2
          · rename_i e; simp only [List.cons.injEq] at e; exact absurd e.1 c3
          · rfl
      | @sign ws t n hws hn =>
        rw [fin (neg := false) (t := t) hn, show min n (2 ^ 64 - 1) = if n ≥ 2 ^ 64 then 2 ^ 64 - 1 else n by split <;> omega]
        · simp
        · rw [dropWhile_prefix hws (by simp [isSpace])]
          rfl
      | @minus ws t n hws hn =>
        rw [fin (neg := true) (t := t) hn]
        · simp
        · rw [dropWhile_prefix hws (by simp [isSpace])]
          rfl

/-- **C105.** An environment variable is accepted exactly if it is a number in the notation of C, with white space and a sign in front of it or not (or empty, see below), and then
its value is what is stored. -/
theorem C105_getenv_partial (s : List UInt8) (old v : Nat) : getenvInt (some s) old = (true, v) ↔ (s = [] ∧ v = 0) ∨ CSigned s v := by
  rw [← strtoul0_iff]
  unfold getenvInt
  dsimp only
  constructor
  · intro h
    simp only [Prod.mk.injEq, decide_eq_true_eq] at h
    exact Prod.ext h.2 h.1
  · intro h
    rw [h]; rfl

/-- **C105.** The stored value has at most 64 bits, and a variable that is not set changes nothing. -/
theorem C105_range (env : Option (List UInt8)) (old : Nat) (h : old < 2 ^ 64) : (getenvInt env old).2 < 2 ^ 64 ∧ (env = none → getenvInt env old = (false, old)) := by
  refine ⟨?_, fun e => by rw [e]; rfl⟩
  unfold getenvInt
  cases env with
  | none => exact h
  | some s =>
    dsimp only
    unfold strtoul0
    dsimp only
    split
    · exact Nat.pow_pos (by decide)
    · dsimp only
      split
      · decide
      · split
        · exact Nat.mod_lt _ (by decide)
        · omega

/-- **C105 is violated**: an empty variable is taken as the number 0. -/
theorem C105_empty_violated (old : Nat) : getenvInt (some []) old = (true, 0) := rfl

/-- **C105 is violated**: negative numbers and numbers that are too large are accepted. -/
theorem C105_wrap_violated : getenvInt (some (ascii "-1")) 7 = (true, 2 ^ 64 - 1) ∧ getenvInt (some (ascii "99999999999999999999")) 7 = (true, 2 ^ 64 - 1) := by
  decide +kernel

/-- **C105 is violated**: if the text is rejected, the value has been overwritten nevertheless. -/
theorem C105_clobber_violated : getenvInt (some (ascii "12MB")) 7 = (false, 12) := by decide +kernel

example : getenvInt (some (ascii " +0x1F")) 7 = (true, 31) ∧ getenvInt (some (ascii "010")) 7 = (true, 8) ∧ getenvInt (some (ascii "08")) 7 = (false, 0) ∧
    getenvInt (some (ascii "0x")) 7 = (false, 0) := by decide +kernel
example : CSigned (ascii " 42") 42 := .plus (ws := [32]) (t := ascii "42") (n := 42) (by decide) (.dec (by decide)
  (.snoc (ds := [52]) (n := 4) (.snoc (ds := []) (n := 0) .nil (.dec 4 (by omega) (by omega))) (.dec 2 (by omega) (by omega))))

/-! ## C106 -/

/-- The octets of a word, least significant first. -/
def octetsOf32 (x : UInt32) : List Nat := (List.range 4).map fun i => x.toNat / 256 ^ i % 256

theorem byte_testBit (n i j : Nat) : (n / 256 ^ i % 256).testBit j = (decide (j < 8) && n.testBit (8 * i + j)) := by
  rw [show (256 : Nat) ^ i = 2 ^ (8 * i) by rw [Nat.pow_mul], show (256 : Nat) = 2 ^ 8 from rfl, Nat.testBit_mod_two_pow, Nat.testBit_div_two_pow]
  rw [Nat.add_comm]

theorem bswap_bit (x : UInt32) : ∀ k < 32, (myBswap32 x).toNat.testBit k = x.toNat.testBit (8 * (3 - k / 8) + k % 8) := by
  intro k hk
  have hx : x.toNat < 2 ^ 32 := x.toNat_lt
  unfold myBswap32
  simp only [UInt32.toNat_or, UInt32.toNat_and, UInt32.toNat_shiftLeft, UInt32.toNat_shiftRight, Nat.testBit_or, Nat.testBit_and,
    (by decide : (24 : UInt32).toNat % 32 = 24), (by decide : (8 : UInt32).toNat % 32 = 8), Nat.testBit_mod_two_pow, Nat.testBit_shiftLeft, Nat.testBit_shiftRight]
  have hm : ∀ k < 32, ((0xff000000 : UInt32).toNat.testBit k = decide (24 ≤ k)) ∧ ((0x00ff0000 : UInt32).toNat.testBit k = decide (16 ≤ k ∧ k < 24)) ∧
      ((0x0000ff00 : UInt32).toNat.testBit k = decide (8 ≤ k ∧ k < 16)) ∧ ((0x000000ff : UInt32).toNat.testBit k = decide (k < 8)) := by decide
  obtain ⟨m1, m2, m3, m4⟩ := hm k hk
  rw [m1, m2, m3, m4]
  by_cases h1 : 24 ≤ k
  · simp [h1, hk, show ¬ k < 24 by omega, show ¬ k < 16 by omega, show ¬ k < 8 by omega, show 8 * (3 - k / 8) + k % 8 = k - 24 by omega]
  · by_cases h2 : 16 ≤ k
    · simp [h1, h2, hk, show k < 24 by omega, show ¬ k < 16 by omega, show ¬ k < 8 by omega, show 8 ≤ k by omega, show 8 * (3 - k / 8) + k % 8 = k - 8 by omega]
    · by_cases h3 : 8 ≤ k
      · simp [h1, h2, h3, show k < 16 by omega, show ¬ k < 8 by omega, show 8 * (3 - k / 8) + k % 8 = 8 + k by omega]
      · simp [h1, h2, h3, show k < 8 by omega, show 8 * (3 - k / 8) + k % 8 = 24 + k by omega]

/-- **C106.** `my_bswap32` reverses the octets of a word. -/
theorem C106_bswap (x : UInt32) : octetsOf32 (myBswap32 x) = (octetsOf32 x).reverse := by
  have key : ∀ i < 4, (myBswap32 x).toNat / 256 ^ i % 256 = x.toNat / 256 ^ (3 - i) % 256 := by
    intro i hi
    apply Nat.eq_of_testBit_eq
    intro j
    rw [byte_testBit, byte_testBit]
    by_cases hj : j < 8
    · rw [bswap_bit x _ (by omega), show 8 * (3 - (8 * i + j) / 8) + (8 * i + j) % 8 = 8 * (3 - i) + j by omega]
    · simp [hj]
  show [_, _, _, _] = [_, _, _, _]
  have k0 := key 0 (by omega); have k1 := key 1 (by omega); have k2 := key 2 (by omega); have k3 := key 3 (by omega)
  dsimp only
  rw [k0, k1, k2, k3]

theorem word_bytes (n : Nat) (h : n < 2 ^ 32) : n = n % 256 + 256 * (n / 256 % 256) + 65536 * (n / 65536 % 256) + 16777216 * (n / 16777216 % 256) := by omega

/-- **C106.** A word read from memory and passed through `my_le32toh` is the little-endian value of the four octets, on every machine; and `my_htole32` is the same function. -/
theorem C106_le32 (le : Bool) (a b c d : UInt8) : (myLe32 le (UInt32.ofNat (dec32 le [a, b, c, d]))).toNat = a.toNat + 256 * b.toNat + 65536 * c.toNat + 16777216 * d.toNat := by
  have ha := a.toNat_lt; have hb := b.toNat_lt; have hc := c.toNat_lt; have hd := d.toNat_lt
  have hof : ∀ n, n < 2 ^ 32 → (UInt32.ofNat n).toNat = n := fun n hn => by rw [UInt32.toNat_ofNat', Nat.mod_eq_of_lt hn]
  cases le with
  | true =>
    rw [show myLe32 true (UInt32.ofNat (dec32 true [a, b, c, d])) = UInt32.ofNat (dec32 true [a, b, c, d]) from rfl]
    simp only [dec32, be32, if_true]
    rw [hof _ (by omega)]
    omega
  | false =>
    rw [show myLe32 false (UInt32.ofNat (dec32 false [a, b, c, d])) = myBswap32 (UInt32.ofNat (dec32 false [a, b, c, d])) from rfl]
    have h := C106_bswap (UInt32.ofNat (dec32 false [a, b, c, d]))
    rw [show (octetsOf32 (UInt32.ofNat (dec32 false [a, b, c, d]))).reverse = [_, _, _, _] from rfl] at h
    rw [show octetsOf32 (myBswap32 (UInt32.ofNat (dec32 false [a, b, c, d]))) = [_, _, _, _] from rfl] at h
    have e : (UInt32.ofNat (dec32 false [a, b, c, d])).toNat = 16777216 * a.toNat + 65536 * b.toNat + 256 * c.toNat + d.toNat := by
      simp only [dec32, be32, Bool.false_eq_true, if_false]
      rw [hof _ (by omega)]
      omega
    simp only [List.cons.injEq, e, Nat.reducePow, and_true, Nat.div_one] at h
    obtain ⟨h0, h1, h2, h3⟩ := h
    rw [word_bytes _ (UInt32.toNat_lt _), h0, h1, h2, h3]
    omega

/-- **C106.** Packing a message into a buffer appends its pieces. -/
theorem C106_pack (ds : List (List UInt8)) : ∀ (u : Ubuf) (l : List UInt8), Ubuf.Inv u l → ∃ u', pbPack u ds = ok u' ∧ Ubuf.Inv u' (l ++ ds.flatten) ∧ UHolds u' (l ++ ds.flatten) := by
  induction ds with
  | nil => intro u l h; exact ⟨u, rfl, by simpa using h, by simpa using h.1⟩
  | cons d ds ih =>
    intro u l h
    obtain ⟨u1, e1, i1⟩ := Ubuf.append_spec h d
    obtain ⟨u2, e2, i2⟩ := ih u1 _ i1
    refine ⟨u2, ?_, by rw [List.flatten_cons, ← List.append_assoc]; exact i2⟩
    rw [pbPack, pbAppend, e1, ok_bind, e2]

/-- From a fresh buffer. -/
example : ∃ u, pbPack (Ubuf.init 64) [ascii "ab", [], ascii "c"] = ok u ∧ UHolds u (ascii "abc") := by
  obtain ⟨u, h1, -, h2⟩ := C106_pack [ascii "ab", [], ascii "c"] _ _ (Ubuf.inv_init 64)
  exact ⟨u, h1, h2⟩

example : myBswap32 0x01020304 = 0x04030201 := by decide

end Wdns
