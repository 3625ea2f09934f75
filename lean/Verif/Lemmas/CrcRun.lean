import Verif.Lemmas.Crc

/-!
# Lemmas: the two implementations compute the register
-/

namespace Wdns
open Outcome

/-- How the register is kept. -/
def crcEnc (big : Bool) (c : Nat) : Nat := if big then rev32 c else c

theorem crcEnc_xor (big : Bool) (x y : Nat) : crcEnc big (x ^^^ y) = crcEnc big x ^^^ crcEnc big y := by
  cases big
  · rfl
  · exact rev32_xor x y

/-- Four octets as a word, the first one lowest. -/
def word4 (a b c d : Nat) : Nat := a + 256 * (b + 256 * (c + 256 * d))

theorem div256 {a z : Nat} (h : a < 256) : (a + 256 * z) / 2 ^ 8 = z ∧ (a + 256 * z) % 256 = a := by omega

theorem word4_octs {a b c d : Nat} (ha : a < 256) (hb : b < 256) (hc : c < 256) (hd : d < 256) : word4 a b c d % 256 = a ∧
    word4 a b c d / 2 ^ 8 = word4 b c d 0 ∧ word4 a b c d / 2 ^ 16 = word4 c d 0 0 ∧ word4 a b c d / 2 ^ 24 = d ∧ word4 a b c d < 2 ^ 32 := by
  have e16 : ∀ x : Nat, x / 2 ^ 16 = x / 2 ^ 8 / 2 ^ 8 := fun x => by omega
  have e24 : ∀ x : Nat, x / 2 ^ 24 = x / 2 ^ 8 / 2 ^ 8 / 2 ^ 8 := fun x => by omega
  unfold word4
  refine ⟨(div256 ha).2, ?_, ?_, ?_, ?_⟩
  · rw [(div256 ha).1]; simp
  · rw [e16, (div256 ha).1, (div256 hb).1]; simp
  · rw [e24, (div256 ha).1, (div256 hb).1, (div256 hc).1]
  · omega

theorem octs4 (x : Nat) (hx : x < 2 ^ 32) : ∃ a b c d, a < 256 ∧ b < 256 ∧ c < 256 ∧ d < 256 ∧ x = word4 a b c d ∧ rev32 x = word4 d c b a := by
  have e16 : x / 2 ^ 16 = x / 2 ^ 8 / 2 ^ 8 := by omega
  have e24 : x / 2 ^ 24 = x / 2 ^ 8 / 2 ^ 8 / 2 ^ 8 := by omega
  refine ⟨x % 256, x / 2 ^ 8 % 256, x / 2 ^ 16 % 256, x / 2 ^ 24, by omega, by omega, by omega, by omega, ?_, ?_⟩
  · unfold word4; omega
  · rw [rev32_eq]
    have : x / 2 ^ 24 % 256 = x / 2 ^ 24 := by omega
    rw [this]
    unfold word4
    generalize x % 256 = a, x / 2 ^ 8 % 256 = b, x / 2 ^ 16 % 256 = c, x / 2 ^ 24 = d
    omega

theorem rev32_word {a b c d : Nat} (ha : a < 256) (hb : b < 256) (hc : c < 256) (hd : d < 256) : rev32 (word4 a b c d) = word4 d c b a := by
  obtain ⟨h1, h2, h3, h4, h5⟩ := word4_octs ha hb hc hd
  rw [rev32_eq, h1, h2, h3, h4, (word4_octs hb hc hd (by decide)).1, (word4_octs hc hd (by decide) (by decide)).1, Nat.mod_eq_of_lt hd]
  unfold word4
  omega

theorem crcOctet_eq (big : Bool) {c : Nat} (hc : c < 2 ^ 32) (b : UInt8) :
    crcOctet big (crcEnc big c) b = ok (crcEnc big (crcSteps 8 (c ^^^ b.toNat))) := by
  have hb := b.toNat_lt
  have key : crcSteps 8 (c ^^^ b.toNat) = crcSteps 8 ((c ^^^ b.toNat) % 256) ^^^ (c >>> 8) := by
    conv_lhs => rw [split8 (c ^^^ b.toNat)]
    rw [crcSteps_xor, crcSteps_shift, Nat.xor_comm, Nat.shiftRight_xor_distrib]
    rw [show b.toNat >>> 8 = 0 from by rw [Nat.shiftRight_eq_div_pow]; omega, Nat.xor_zero]
  cases big
  · simp only [crcOctet, crcEnc, Bool.false_eq_true, if_false]
    rw [and_255, tableLe 0 _ (by decide) (Nat.mod_lt _ (by decide)), ok_bind, key]
  · simp only [crcOctet, crcEnc, if_true]
    have h1 : (rev32 c >>> 24 ^^^ b.toNat) % 256 = (c ^^^ b.toNat) % 256 := by
      have hm : ∀ a b : Nat, (a ^^^ b) % 256 = (a % 256) ^^^ (b % 256) := fun a b => by
        simpa using Nat.xor_mod_two_pow (a := a) (b := b) (n := 8)
      rw [hm, hm c]
      congr 1
      obtain ⟨b0, b1, b2, b3, g0, g1, g2, g3, e1, e2⟩ := octs4 c hc
      rw [e2, e1, Nat.shiftRight_eq_div_pow, (word4_octs g3 g2 g1 g0).2.2.2.1, (word4_octs g0 g1 g2 g3).1, Nat.mod_eq_of_lt g0]
    have h2 : (rev32 c <<< 8) % 2 ^ 32 = rev32 (c >>> 8) := by
      obtain ⟨b0, b1, b2, b3, g0, g1, g2, g3, e1, e2⟩ := octs4 c hc
      rw [e2, e1, Nat.shiftRight_eq_div_pow, (word4_octs g0 g1 g2 g3).2.1, rev32_word g1 g2 g3 (by decide), Nat.shiftLeft_eq]
      unfold word4
      omega
    rw [and_255, h1, tableBe 0 _ (by decide) (Nat.mod_lt _ (by decide)), ok_bind, h2, key, rev32_xor]

theorem rd_at {mem : List UInt8} {p : Nat} {c : UInt8} {l : List UInt8} (h : mem.drop p = c :: l) : rd mem p = ok c ∧ mem.drop (p + 1) = l := by
  constructor
  · have : mem[p]? = some c := by
      have := congrArg (·[0]?) h
      simpa using this
    unfold rd; rw [this]
  · rw [← List.drop_drop, h]; rfl

theorem step8_lt {c : Nat} (hc : c < 2 ^ 32) (b : UInt8) : crcSteps 8 (c ^^^ b.toNat) < 2 ^ 32 :=
  crcSteps_lt (Nat.xor_lt_two_pow hc (by have := b.toNat_lt; omega))

theorem crcHead_eq (big : Bool) (base : Nat) (mem : List UInt8) : ∀ (len p c : Nat) (l rest : List UInt8), c < 2 ^ 32 → mem.drop p = l ++ rest →
    l.length = len → ∃ a b, l = a ++ b ∧ mem.drop (p + a.length) = b ++ rest ∧
      crcHead big base mem len p (crcEnc big c) = ok (b.length, p + a.length, crcEnc big (crcReg c a))
  | 0, p, c, l, rest, _, hm, hl => by
    refine ⟨[], [], ?_, ?_, ?_⟩
    · simpa using hl
    · rw [List.length_eq_zero_iff.mp hl] at hm; simpa using hm
    · simp [crcHead, crcReg_nil]
  | len + 1, p, c, l, rest, hc, hm, hl => by
    obtain ⟨x, l, rfl⟩ : ∃ x l', l = x :: l' := by cases l with
      | nil => simp at hl
      | cons x l => exact ⟨x, l, rfl⟩
    by_cases h : (base + p) &&& 3 ≠ 0
    · obtain ⟨h1, h2⟩ := rd_at (by simpa using hm)
      obtain ⟨a, b, h3, h4, h5⟩ := crcHead_eq big base mem len (p + 1) _ l rest (step8_lt hc x) h2 (by simpa using hl)
      refine ⟨x :: a, b, by rw [h3]; rfl, ?_, ?_⟩
      · rw [List.length_cons, show p + (a.length + 1) = p + 1 + a.length from by omega, h4]
      · simp only [crcHead]
        rw [if_pos h, h1, ok_bind, crcOctet_eq big hc, ok_bind, h5, crcReg_cons, List.length_cons,
          show p + (a.length + 1) = p + 1 + a.length from by omega]
    · refine ⟨[], x :: l, rfl, by simpa using hm, ?_⟩
      simp only [crcHead]
      rw [if_neg h, crcReg_nil]
      simp only [List.length_nil, Nat.add_zero]
      rw [hl]

theorem leVal4 (a b c d : UInt8) : leVal [a, b, c, d] = a.toNat ^^^ (b.toNat <<< 8) ^^^ (c.toNat <<< 16) ^^^ (d.toNat <<< 24) := by
  have hl : ∀ k a b : Nat, (a ^^^ b) <<< k = (a <<< k) ^^^ (b <<< k) := fun k a b => Nat.shiftLeft_xor_distrib
  have h0 : (0 : Nat) <<< 8 = 0 := rfl
  simp only [leVal, h0, Nat.xor_zero]
  rw [hl, hl, hl, ← Nat.shiftLeft_add, ← Nat.shiftLeft_add, ← Nat.shiftLeft_add]
  simp only [Nat.xor_assoc]

theorem leVal_lt (l : List UInt8) : leVal l < 2 ^ (8 * l.length) := by
  induction l with
  | nil => simp [leVal]
  | cons b l ih =>
    have hb := b.toNat_lt
    rw [leVal, Nat.xor_comm, shl_xor (by omega), List.length_cons, show 8 * (l.length + 1) = 8 * l.length + 8 from by omega, Nat.pow_add]
    omega

theorem rev32_octet (a : Nat) (h : a < 256) : rev32 a = a <<< 24 ∧ rev32 (a <<< 8) = a <<< 16 ∧ rev32 (a <<< 16) = a <<< 8 ∧
    rev32 (a <<< 24) = a := by
  simp only [rev32_eq, Nat.shiftLeft_eq]
  omega

theorem load32_eq (big : Bool) {mem : List UInt8} {p : Nat} {a b c d : UInt8} {l : List UInt8} (h : mem.drop p = a :: b :: c :: d :: l) :
    load32 big mem p = ok (crcEnc big (leVal [a, b, c, d])) ∧ mem.drop (p + 4) = l := by
  obtain ⟨h0, h⟩ := rd_at h
  obtain ⟨h1, h⟩ := rd_at h
  obtain ⟨h2, h⟩ := rd_at h
  obtain ⟨h3, h⟩ := rd_at h
  refine ⟨?_, h⟩
  unfold load32
  rw [h0, ok_bind, h1, ok_bind, h2, ok_bind, h3, ok_bind, leVal4]
  cases big
  · rfl
  · rw [if_pos rfl, crcEnc, if_pos rfl]
    rw [rev32_xor, rev32_xor, rev32_xor, (rev32_octet _ a.toNat_lt).1, (rev32_octet _ b.toNat_lt).2.1, (rev32_octet _ c.toNat_lt).2.2.1,
      (rev32_octet _ d.toNat_lt).2.2.2]

theorem leVal_append (as bs : List UInt8) : leVal (as ++ bs) = leVal as ^^^ (leVal bs <<< (8 * as.length)) := by
  induction as with
  | nil => simp [leVal]
  | cons a as ih =>
    rw [List.cons_append, leVal, leVal, ih, Nat.shiftLeft_xor_distrib, ← Nat.shiftLeft_add, List.length_cons, Nat.xor_assoc,
      show 8 * as.length + 8 = 8 * (as.length + 1) from by omega]

theorem octs_le (x : Nat) (hx : x < 2 ^ 32) : x >>> 24 < 256 := by rw [Nat.shiftRight_eq_div_pow]; omega

theorem rev32_octs (x : Nat) (hx : x < 2 ^ 32) : rev32 x % 256 = x >>> 24 ∧ (rev32 x >>> 8) % 256 = (x >>> 16) % 256 ∧
    (rev32 x >>> 16) % 256 = (x >>> 8) % 256 ∧ rev32 x >>> 24 = x % 256 := by
  obtain ⟨b0, b1, b2, b3, g0, g1, g2, g3, e1, e2⟩ := octs4 x hx
  obtain ⟨h1, h2, h3, h4, _⟩ := word4_octs g0 g1 g2 g3
  obtain ⟨k1, k2, k3, k4, _⟩ := word4_octs g3 g2 g1 g0
  rw [e2, e1]
  simp only [Nat.shiftRight_eq_div_pow]
  rw [h1, h2, h3, h4, k1, k2, k3, k4, (word4_octs g2 g1 g0 (by decide)).1, (word4_octs g1 g0 (by decide) (by decide)).1,
    (word4_octs g2 g3 (by decide) (by decide)).1, (word4_octs g1 g2 g3 (by decide)).1]
  exact ⟨rfl, rfl, rfl, rfl⟩

attribute [local irreducible] crcSteps rev32 in
theorem crcSlices_eq (big : Bool) (mem : List UInt8) : ∀ (n p c : Nat) (l rest : List UInt8), c < 2 ^ 32 → mem.drop p = l ++ rest →
    l.length = 8 * n → crcSlices big mem n p (crcEnc big c) = ok (p + 8 * n, crcEnc big (crcReg c l)) ∧ mem.drop (p + 8 * n) = rest
  | 0, p, c, l, rest, _, hm, hl => by
    rw [List.length_eq_zero_iff.mp hl] at hm ⊢
    simp [crcSlices, crcReg_nil]
    simpa using hm
  | n + 1, p, c, l, rest, hc, hm, hl => by
    match l, hl with
    | o0 :: o1 :: o2 :: o3 :: o4 :: o5 :: o6 :: o7 :: l, hl =>
    have hl : l.length = 8 * n := by simp only [List.length_cons] at hl; omega
    obtain ⟨h1, h2⟩ := load32_eq big (by simpa using hm)
    obtain ⟨h3, h4⟩ := load32_eq big h2
    rw [Nat.add_assoc] at h4
    have hw : leVal [o0, o1, o2, o3] < 2 ^ 32 := leVal_lt [o0, o1, o2, o3]
    have hn : leVal [o4, o5, o6, o7] < 2 ^ 32 := leVal_lt [o4, o5, o6, o7]
    have hx : c ^^^ leVal [o0, o1, o2, o3] < 2 ^ 32 := Nat.xor_lt_two_pow hc hw
    have hreg : crcReg c [o0, o1, o2, o3, o4, o5, o6, o7] = crcSteps 64 (c ^^^ leVal [o0, o1, o2, o3]) ^^^ crcSteps 32 (leVal [o4, o5, o6, o7]) := by
      unfold crcReg
      rw [show [o0, o1, o2, o3, o4, o5, o6, o7] = [o0, o1, o2, o3] ++ [o4, o5, o6, o7] from rfl, leVal_append, ← Nat.xor_assoc]
      show crcSteps 64 (_ ^^^ (_ <<< 32)) = _
      rw [crcSteps_xor 64, show (64 : Nat) = 32 + 32 from rfl, crcSteps_add 32 32 (_ <<< 32), crcSteps_shift]
    have hreg' : crcReg c (o0 :: o1 :: o2 :: o3 :: o4 :: o5 :: o6 :: o7 :: l) = crcReg (crcReg c [o0, o1, o2, o3, o4, o5, o6, o7]) l := by
      rw [← crcReg_append]; rfl
    obtain ⟨h5, h6⟩ := crcSlices_eq big mem n (p + 8) (crcReg c [o0, o1, o2, o3, o4, o5, o6, o7]) l rest (crcReg_lt hc _)
      (by simpa using h4) hl
    rw [show p + 8 * (n + 1) = p + 8 + 8 * n from by omega]
    refine ⟨?_, h6⟩
    rw [hreg', ← h5, hreg, slices_word 32 _ hx, slices_word 0 _ hn]
    have hxor := crcEnc_xor big c (leVal [o0, o1, o2, o3])
    generalize c ^^^ leVal [o0, o1, o2, o3] = x at hx hxor ⊢
    generalize leVal [o4, o5, o6, o7] = w at hn h3 ⊢
    have m8 : ∀ y : Nat, y % 256 < 256 := fun y => Nat.mod_lt _ (by decide)
    rw [crcSlices, h1, ok_bind, h3, ok_bind, ← hxor]
    cases big
    · rw [if_neg (by decide)]
      simp only [crcEnc, Bool.false_eq_true, if_false, and_255]
      rw [tableLe 7 _ (by decide) (m8 _), tableLe 6 _ (by decide) (m8 _), tableLe 5 _ (by decide) (m8 _), tableLe 4 _ (by decide) (octs_le x hx),
        tableLe 3 _ (by decide) (m8 _), tableLe 2 _ (by decide) (m8 _), tableLe 1 _ (by decide) (m8 _), tableLe 0 _ (by decide) (octs_le w hn)]
      simp only [ok_bind]
      congr 1
      simp only [Nat.zero_add, Nat.reduceAdd, Nat.reduceMul, Nat.xor_assoc]
    · rw [if_pos rfl]
      simp only [crcEnc, if_true, and_255]
      obtain ⟨x1, x2, x3, x4⟩ := rev32_octs x hx
      obtain ⟨w1, w2, w3, w4⟩ := rev32_octs w hn
      rw [x1, x2, x3, x4, w1, w2, w3, w4]
      rw [tableBe 7 _ (by decide) (m8 _), tableBe 6 _ (by decide) (m8 _), tableBe 5 _ (by decide) (m8 _), tableBe 4 _ (by decide) (octs_le x hx),
        tableBe 3 _ (by decide) (m8 _), tableBe 2 _ (by decide) (m8 _), tableBe 1 _ (by decide) (m8 _), tableBe 0 _ (by decide) (octs_le w hn)]
      simp only [ok_bind]
      congr 1
      simp only [Nat.zero_add, Nat.reduceAdd, Nat.reduceMul, rev32_xor]
      generalize rev32 (crcSteps 64 (x % 256)) = t0, rev32 (crcSteps 56 (x >>> 8 % 256)) = t1, rev32 (crcSteps 48 (x >>> 16 % 256)) = t2,
        rev32 (crcSteps 40 (x >>> 24)) = t3, rev32 (crcSteps 32 (w % 256)) = t4, rev32 (crcSteps 24 (w >>> 8 % 256)) = t5,
        rev32 (crcSteps 16 (w >>> 16 % 256)) = t6, rev32 (crcSteps 8 (w >>> 24)) = t7
      ac_rfl

theorem crcTail_eq (big : Bool) (mem : List UInt8) : ∀ (n p c : Nat) (l rest : List UInt8), c < 2 ^ 32 → mem.drop p = l ++ rest → l.length = n →
    crcTail big mem n p (crcEnc big c) = ok (crcEnc big (crcReg c l))
  | 0, p, c, l, rest, _, hm, hl => by rw [List.length_eq_zero_iff.mp hl, crcReg_nil]; rfl
  | n + 1, p, c, l, rest, hc, hm, hl => by
    match l, hl with
    | x :: l, hl =>
    obtain ⟨h1, h2⟩ := rd_at (by simpa using hm)
    rw [crcTail, h1, ok_bind, crcOctet_eq big hc, ok_bind, crcTail_eq big mem n (p + 1) _ l rest (step8_lt hc x) h2 (by simpa using hl), crcReg_cons]

theorem crcSlicing_eq (big : Bool) (base : Nat) (mem : List UInt8) (len : Nat) (h : len ≤ mem.length) :
    crcSlicing big base mem len = ok (crcReg 0xffffffff (mem.take len) ^^^ 0xffffffff) := by
  obtain ⟨a, b, h1, h2, h3⟩ := crcHead_eq big base mem len 0 0xffffffff (mem.take len) (mem.drop len) (by decide)
    (by rw [List.drop_zero, List.take_append_drop]) (by simp [h])
  have h0 : crcEnc big 0xffffffff = 0xffffffff := by cases big <;> decide +kernel
  rw [h0] at h3
  have hb : b = b.take (8 * (b.length / 8)) ++ b.drop (8 * (b.length / 8)) := (List.take_append_drop _ _).symm
  rw [hb, List.append_assoc] at h2
  have hA := crcReg_lt (by decide : 0xffffffff < 2 ^ 32) a
  obtain ⟨h4, h5⟩ := crcSlices_eq big mem (b.length / 8) (0 + a.length) (crcReg 0xffffffff a) _ _ hA h2 (by simp; omega)
  have h6 := crcTail_eq big mem (b.length &&& 7) _ _ _ _ (crcReg_lt hA (b.take (8 * (b.length / 8)))) h5
    (by rw [show b.length &&& 7 = b.length % 8 from Nat.and_two_pow_sub_one_eq_mod _ 3]; simp; omega)
  have hreg : crcReg (crcReg (crcReg 0xffffffff a) (b.take (8 * (b.length / 8)))) (b.drop (8 * (b.length / 8))) = crcReg 0xffffffff (mem.take len) := by
    rw [← crcReg_append, ← crcReg_append, ← hb, ← h1]
  unfold crcSlicing
  rw [h3, ok_bind]
  dsimp only
  rw [h4, ok_bind]
  dsimp only
  rw [h6, ok_bind, hreg]
  cases big
  · rfl
  · simp only [crcEnc, if_true]
    rw [crcSwap_eq]
    have := crcReg_lt (by decide : 0xffffffff < 2 ^ 32) (mem.take len)
    obtain ⟨b0, b1, b2, b3, g0, g1, g2, g3, e1, e2⟩ := octs4 _ this
    rw [e2, e1, rev32_word g3 g2 g1 g0]

theorem load16_eq {mem : List UInt8} {p : Nat} {a b : UInt8} {l : List UInt8} (h : mem.drop p = a :: b :: l) :
    load16 mem p = ok (leVal [a, b]) ∧ mem.drop (p + 2) = l := by
  obtain ⟨h0, h⟩ := rd_at h
  obtain ⟨h1, h⟩ := rd_at h
  refine ⟨?_, h⟩
  unfold load16
  rw [h0, ok_bind, h1, ok_bind]
  simp [leVal]

theorem insn_octets (c : Nat) (l : List UInt8) : crcInsn (8 * l.length) c (leVal l) = crcReg c l := insn_eq _ _ _ (leVal_lt l)

attribute [local irreducible] crcInsn leVal crcReg in
theorem crcQuads_eq (mem : List UInt8) : ∀ (n p c : Nat) (l rest : List UInt8), mem.drop p = l ++ rest →
    l.length = 8 * n → crcQuads mem n p c = ok (p + 8 * n, crcReg c l) ∧ mem.drop (p + 8 * n) = rest
  | 0, p, c, l, rest, hm, hl => by
    rw [List.length_eq_zero_iff.mp hl] at hm ⊢
    simp [crcQuads, crcReg_nil]
    simpa using hm
  | n + 1, p, c, l, rest, hm, hl => by
    match l, hl with
    | o0 :: o1 :: o2 :: o3 :: o4 :: o5 :: o6 :: o7 :: l, hl =>
    have hl : l.length = 8 * n := by simp only [List.length_cons] at hl; omega
    obtain ⟨h1, h2⟩ := load32_eq false (by simpa using hm)
    obtain ⟨h3, h4⟩ := load32_eq false h2
    rw [Nat.add_assoc] at h4
    obtain ⟨h5, h6⟩ := crcQuads_eq mem n (p + 8) (crcReg c [o0, o1, o2, o3, o4, o5, o6, o7]) l rest (by simpa using h4) hl
    rw [show p + 8 * (n + 1) = p + 8 + 8 * n from by omega]
    refine ⟨?_, h6⟩
    rw [show crcReg c (o0 :: o1 :: o2 :: o3 :: o4 :: o5 :: o6 :: o7 :: l) = crcReg (crcReg c [o0, o1, o2, o3, o4, o5, o6, o7]) l from by
      rw [← crcReg_append]; rfl, ← h5]
    rw [crcQuads, load64, h1, ok_bind, h3, ok_bind, ok_bind]
    have e : leVal [o0, o1, o2, o3, o4, o5, o6, o7] = leVal [o0, o1, o2, o3] ^^^ (leVal [o4, o5, o6, o7] <<< 32) :=
      leVal_append [o0, o1, o2, o3] [o4, o5, o6, o7]
    have e2 := insn_octets c [o0, o1, o2, o3, o4, o5, o6, o7]
    rw [e] at e2
    rw [← e2]
    rfl

theorem crcSse42_eq (mem : List UInt8) (len : Nat) (h : len ≤ mem.length) :
    crcSse42 mem len = ok (crcReg 0xffffffff (mem.take len) ^^^ 0xffffffff) := by
  have ht : mem.take len = (mem.take len).take (8 * (len / 8)) ++ (mem.take len).drop (8 * (len / 8)) := (List.take_append_drop _ _).symm
  have hm : mem.drop 0 = (mem.take len).take (8 * (len / 8)) ++ ((mem.take len).drop (8 * (len / 8)) ++ mem.drop len) := by
    rw [← List.append_assoc, ← ht, List.drop_zero, List.take_append_drop]
  obtain ⟨h1, h2⟩ := crcQuads_eq mem (len / 8) 0 0xFFFFFFFF _ _ hm (by simp; omega)
  have hl : ((mem.take len).drop (8 * (len / 8))).length = len % 8 := by simp; omega
  unfold crcSse42
  rw [h1, ok_bind]
  conv_rhs => rw [ht, crcReg_append]
  generalize crcReg 0xFFFFFFFF ((mem.take len).take (8 * (len / 8))) = c at *
  generalize (mem.take len).drop (8 * (len / 8)) = l at *
  generalize mem.drop len = rest at *
  dsimp only
  generalize 0 + 8 * (len / 8) = p at *
  rw [show len &&& 7 = len % 8 from Nat.and_two_pow_sub_one_eq_mod _ 3]
  have i1 : ∀ (c : Nat) (a : UInt8), crcInsn 8 c a.toNat = crcReg c [a] := fun c a => by
    rw [← insn_octets]; simp [leVal]
  have i2 : ∀ (c : Nat) (a b : UInt8), crcInsn 16 c (leVal [a, b]) = crcReg c [a, b] := fun c a b => insn_octets c [a, b]
  have i4 : ∀ (c : Nat) (a b d e : UInt8), crcInsn 32 c (leVal [a, b, d, e]) = crcReg c [a, b, d, e] := fun c a b d e => insn_octets c [a, b, d, e]
  match l, hl with
  | [], hl => rw [← hl]; simp [crcReg_nil]
  | [a], hl =>
    obtain ⟨g1, g2⟩ := rd_at (by simpa using h2)
    rw [← hl]; simp [g1, i1]
  | [a, b], hl =>
    obtain ⟨g1, g2⟩ := load16_eq (by simpa using h2)
    rw [← hl]; simp [g1, i2]
  | [a, b, d], hl =>
    obtain ⟨g1, g2⟩ := rd_at (by simpa using h2)
    obtain ⟨g3, g4⟩ := load16_eq g2
    rw [← hl]; simp [g1, i1, g3, i2, ← crcReg_append]
  | [a, b, d, e], hl =>
    obtain ⟨g1, g2⟩ := load32_eq false (by simpa using h2)
    rw [← hl]; simp [g1, i4, crcEnc]
  | [a, b, d, e, f], hl =>
    obtain ⟨g1, g2⟩ := load32_eq false (by simpa using h2)
    obtain ⟨g3, g4⟩ := rd_at g2
    rw [← hl]; simp [g1, i1, g3, i4, crcEnc, ← crcReg_append]
  | [a, b, d, e, f, g], hl =>
    obtain ⟨g1, g2⟩ := load16_eq (by simpa using h2)
    obtain ⟨g3, g4⟩ := load32_eq false g2
    rw [← hl]; simp [g1, i2, g3, i4, crcEnc, ← crcReg_append]
  | [a, b, d, e, f, g, k], hl =>
    obtain ⟨g1, g2⟩ := rd_at (by simpa using h2)
    obtain ⟨g3, g4⟩ := load16_eq g2
    obtain ⟨g5, g6⟩ := load32_eq false g4
    rw [Nat.add_assoc] at g5
    rw [← hl]; simp [g1, i1, g3, i2, g5, i4, crcEnc, ← crcReg_append]
  | _ :: _ :: _ :: _ :: _ :: _ :: _ :: _ :: _, hl => simp only [List.length_cons] at hl; omega
  
end Wdns
