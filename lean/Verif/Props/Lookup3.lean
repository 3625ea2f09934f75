import Verif.Lemmas.Lookup3Run

/-!
# C86 — the hash functions depend on nothing but the key and the seeds

`my_hashlittle`, `my_hashlittle2` and `my_hashbig` (libmy/lookup3.c) compute Jenkins's hash of the octets of the key, whatever the alignment of
the key, the byte order of the machine and the `VALGRIND` setting; `my_hashword` and `my_hashword2` the hash of the words.  Without `VALGRIND`
an aligned key is read to the end of its last word of four octets, i.e. up to three octets beyond its end.
-/

namespace Wdns
open Outcome

theorem lkWord_at {key : List (BitVec 32)} {k : Nat} {x : BitVec 32} {r : List (BitVec 32)} (h : key.drop k = x :: r) :
    lkWord key k = ok x ∧ key.drop (k + 1) = r := by
  constructor
  · have : key[k]? = some x := by
      have := congrArg (·[0]?) h
      simpa using this
    unfold lkWord; rw [this]
  · rw [← List.drop_drop, h]; rfl

theorem words_run {key : List (BitVec 32)} : ∀ (fuel k len : Nat) (s : Lk) (ws r : List (BitVec 32)), key.drop k = ws ++ r → ws.length = len →
    len < fuel → (do let (k, len, s) ← lkWordLoop key fuel k len s; lkWSwitch key k len s) = ok (Spec.hashRegs s ws)
  | 0, _, _, _, _, _, _, _, hf => absurd hf (by omega)
  | fuel + 1, k, len, (a, b, c), ws, r, h, hl, hf => by
    rw [lkWordLoop]
    match ws, h, hl with
    | [], h, hl =>
      subst hl
      rfl
    | [x], h, hl =>
      subst hl
      obtain ⟨h0, h⟩ := lkWord_at h
      simp only [List.length_cons, List.length_nil, Nat.reduceAdd, Nat.reduceLT, gt_iff_lt, if_false, ok_bind, lkWSwitch, lkW1, h0, lkFinal_eq,
        Spec.hashRegs]
    | [x, y], h, hl =>
      subst hl
      obtain ⟨h0, h⟩ := lkWord_at h
      obtain ⟨h1, h⟩ := lkWord_at h
      simp only [List.length_cons, List.length_nil, Nat.reduceAdd, Nat.reduceLT, gt_iff_lt, if_false, ok_bind, lkWSwitch, lkW1, lkW2, h0, h1,
        lkFinal_eq, Spec.hashRegs]
    | [x, y, z], h, hl =>
      subst hl
      obtain ⟨h0, h⟩ := lkWord_at h
      obtain ⟨h1, h⟩ := lkWord_at h
      obtain ⟨h2, h⟩ := lkWord_at h
      simp only [List.length_cons, List.length_nil, Nat.reduceAdd, Nat.lt_irrefl, gt_iff_lt, if_false, ok_bind, lkWSwitch, lkW1, lkW2, lkW3, h0, h1,
        h2, lkFinal_eq, Spec.hashRegs]
    | x :: y :: z :: w :: ws, h, hl =>
      simp only [List.length_cons] at hl
      obtain ⟨h0, h⟩ := lkWord_at h
      obtain ⟨h1, h⟩ := lkWord_at h
      obtain ⟨h2, h⟩ := lkWord_at h
      rw [if_pos (by omega)]
      simp only [h0, h1, h2, ok_bind, lkMix_eq, Spec.hashRegs]
      exact words_run fuel (k + 3) (len - 3) _ (w :: ws) r h (by simp only [List.length_cons]; omega) (by omega)

theorem lkWords_eq {key : List (BitVec 32)} {len : Nat} (h : len ≤ key.length) (s : Lk) : lkWords key len s = ok (Spec.hashRegs s (key.take len)) := by
  have := words_run (key := key) (len + 1) 0 len s (key.take len) (key.drop len) (by simp) (by simp; omega) (by omega)
  rw [← this]; rfl

/-- `my_hashword2` is the hash of the words of the key. -/
theorem C86_hashword2 {key : List (BitVec 32)} {len : Nat} (h : len ≤ key.length) (pc pb : BitVec 32) :
    hashword2 key len pc pb = ok (Spec.hashWords (key.take len) pc pb) := by
  unfold hashword2
  dsimp only
  rw [lkWords_eq h, ok_bind]
  simp only [Spec.hashWords, Spec.seedRegs, List.length_take, Nat.min_eq_left h, Nat.shiftLeft_eq, Nat.mul_comm len]

/-- `my_hashword` is the primary hash of the words of the key with second seed 0. -/
theorem C86_hashword {key : List (BitVec 32)} {len : Nat} (h : len ≤ key.length) (seed : BitVec 32) :
    hashword key len seed = ok (Spec.hashWords (key.take len) seed 0).1 := by
  unfold hashword
  dsimp only
  rw [lkWords_eq h, ok_bind]
  simp only [Spec.hashWords, Spec.seedRegs, List.length_take, Nat.min_eq_left h, lk32_shl, Nat.mul_comm len]
  simp

/-- The bodies of `my_hashlittle` and `my_hashlittle2`. -/
theorem lkLittle_eq (cfg : LkCfg) (base : Nat) {mem : List UInt8} {len : Nat} (h : len ≤ mem.length)
    (hw : cfg.little = true → base % 4 = 0 → cfg.valgrind = false → (len + 3) / 4 * 4 ≤ mem.length) (s : Lk) :
    lkLittle cfg base mem len s = ok (Spec.hashRegs s (Spec.hashKey false (mem.take len))) := by
  have hr : RdAll mem 0 (mem.take len) := rdAll_of_drop (r := mem.drop len) _ (by simp)
  have hl : (mem.take len).length = len := by simp; omega
  unfold lkLittle
  by_cases h3 : cfg.little = true ∧ base &&& 3 = 0
  · rw [if_pos h3]
    by_cases hv : cfg.valgrind = true
    · simp only [hv, if_true]
      exact litVal_run _ _ _ _ _ hr hl (by omega)
    · have hv : cfg.valgrind = false := by simpa using hv
      have hb : base % 4 = 0 := by have := h3.2; rwa [show (3 : Nat) = 2 ^ 2 - 1 by decide, Nat.and_two_pow_sub_one_eq_mod] at this
      have hm := hw h3.1 hb hv
      simp only [hv, Bool.false_eq_true, if_false]
      have hlt : ((mem.take ((len + 3) / 4 * 4)).drop len).length = (len + 3) / 4 * 4 - len := by simp; omega
      refine litMask_run _ _ _ _ (mem.take len) ((mem.take ((len + 3) / 4 * 4)).drop len) ?_ hl (by omega) (by omega) (by omega)
      refine rdAll_of_drop (r := mem.drop ((len + 3) / 4 * 4)) _ ?_
      have e : mem.take len = (mem.take ((len + 3) / 4 * 4)).take len := by rw [List.take_take, Nat.min_eq_left (by omega)]
      rw [e, List.take_append_drop, List.take_append_drop, List.drop_zero]
  · rw [if_neg h3]
    by_cases h1 : cfg.little = true ∧ base &&& 1 = 0
    · rw [if_pos h1]
      exact half_run _ _ _ _ _ hr hl (by omega)
    · rw [if_neg h1]
      exact litByte_run _ _ _ _ _ hr hl (by omega)

/-- `my_hashlittle2` on every key: at every address, on every machine, with and without `VALGRIND`, the result is the hash of the octets of the key.
The octets after the key must be readable only as far as the last aligned word of the key goes, only on a little-endian machine, and only
without `VALGRIND`; they have no influence. -/
theorem C86_hashlittle2 (cfg : LkCfg) (base : Nat) {mem : List UInt8} {len : Nat} (h : len ≤ mem.length)
    (hw : cfg.little = true → base % 4 = 0 → cfg.valgrind = false → (len + 3) / 4 * 4 ≤ mem.length) (pc pb : BitVec 32) :
    hashlittle2 cfg base mem len pc pb = ok (Spec.hashOctets false (mem.take len) pc pb) := by
  unfold hashlittle2
  dsimp only
  rw [lkLittle_eq cfg base h hw, ok_bind]
  simp only [Spec.hashOctets, Spec.seedRegs, List.length_take, Nat.min_eq_left h]

/-- A case of `C86_hashlittle2`: an unaligned key may end where its memory ends. -/
example : hashlittle2 ⟨true, false, false⟩ 5 (ascii "wdns lookup") 11 7 9 = ok (Spec.hashOctets false (ascii "wdns lookup") 7 9) :=
  C86_hashlittle2 ⟨true, false, false⟩ 5 (mem := ascii "wdns lookup") (len := 11) (by decide) (by decide) 7 9

/-- `my_hashlittle` on every key. -/
theorem C86_hashlittle (cfg : LkCfg) (base : Nat) {mem : List UInt8} {len : Nat} (h : len ≤ mem.length)
    (hw : cfg.little = true → base % 4 = 0 → cfg.valgrind = false → (len + 3) / 4 * 4 ≤ mem.length) (seed : BitVec 32) :
    hashlittle cfg base mem len seed = ok (Spec.hashOctets false (mem.take len) seed 0).1 := by
  unfold hashlittle
  dsimp only
  rw [lkLittle_eq cfg base h hw, ok_bind]
  simp only [Spec.hashOctets, Spec.seedRegs, List.length_take, Nat.min_eq_left h]
  simp

/-- `my_hashbig` on every key. -/
theorem C86_hashbig (cfg : LkCfg) (base : Nat) {mem : List UInt8} {len : Nat} (h : len ≤ mem.length)
    (hw : cfg.big = true → base % 4 = 0 → cfg.valgrind = false → (len + 3) / 4 * 4 ≤ mem.length) (seed : BitVec 32) :
    hashbig cfg base mem len seed = ok (Spec.hashOctets true (mem.take len) seed 0).1 := by
  have hr : RdAll mem 0 (mem.take len) := rdAll_of_drop (r := mem.drop len) _ (by simp)
  have hl : (mem.take len).length = len := by simp; omega
  have key : ∀ s : Lk, lkBigger cfg base mem len s = ok (Spec.hashRegs s (Spec.hashKey true (mem.take len))) := by
    intro s
    unfold lkBigger
    by_cases h3 : cfg.big = true ∧ base &&& 3 = 0
    · rw [if_pos h3]
      by_cases hv : cfg.valgrind = true
      · simp only [hv, if_true]
        exact bigVal_run _ _ _ _ _ hr hl (by omega)
      · have hv : cfg.valgrind = false := by simpa using hv
        have hb : base % 4 = 0 := by have := h3.2; rwa [show (3 : Nat) = 2 ^ 2 - 1 by decide, Nat.and_two_pow_sub_one_eq_mod] at this
        have hm := hw h3.1 hb hv
        simp only [hv, Bool.false_eq_true, if_false]
        have hlt : ((mem.take ((len + 3) / 4 * 4)).drop len).length = (len + 3) / 4 * 4 - len := by simp; omega
        refine bigMask_run _ _ _ _ (mem.take len) ((mem.take ((len + 3) / 4 * 4)).drop len) ?_ hl (by omega) (by omega) (by omega)
        refine rdAll_of_drop (r := mem.drop ((len + 3) / 4 * 4)) _ ?_
        have e : mem.take len = (mem.take ((len + 3) / 4 * 4)).take len := by rw [List.take_take, Nat.min_eq_left (by omega)]
        rw [e, List.take_append_drop, List.take_append_drop, List.drop_zero]
    · rw [if_neg h3]
      exact bigByte_run _ _ _ _ _ hr hl (by omega)
  unfold hashbig
  dsimp only
  rw [key, ok_bind]
  simp only [Spec.hashOctets, Spec.seedRegs, List.length_take, Nat.min_eq_left h]
  simp

/-- The two values of `my_hashlittle2` with second seed 0: the first one is the value of `my_hashlittle`. -/
theorem C86_second_seed_zero (cfg cfg' : LkCfg) (base base' : Nat) {mem : List UInt8} {len : Nat} (h : (len + 3) / 4 * 4 ≤ mem.length)
    (seed : BitVec 32) : ∃ b, hashlittle2 cfg base mem len seed 0 = ok ((Spec.hashOctets false (mem.take len) seed 0).1, b) ∧
      hashlittle cfg' base' mem len seed = ok (Spec.hashOctets false (mem.take len) seed 0).1 :=
  ⟨_, C86_hashlittle2 cfg base (by omega) (fun _ _ _ => h) seed 0, C86_hashlittle cfg' base' (by omega) (fun _ _ _ => h) seed⟩

theorem word_of_octets (big : Bool) (w : BitVec 32) : Spec.hashWord big (Spec.wordOctets big w) = w := by
  have hw := w.isLt
  have u : ∀ n : Nat, (UInt8.ofNat n).toNat = n % 256 := fun n => by simp
  have e : w.toNat % 256 + w.toNat / 256 % 256 * 2 ^ 8 + w.toNat / 65536 % 256 * 2 ^ 16 + w.toNat / 16777216 % 256 * 2 ^ 24 = w.toNat := by omega
  cases big
  · simp only [Spec.hashWord, Spec.wordOctets, Bool.false_eq_true, if_false, List.getD_cons_zero, List.getD_cons_succ, u, Nat.pow_zero, Nat.div_one,
      Nat.pow_one, show (256 : Nat) ^ 2 = 65536 by decide, show (256 : Nat) ^ 3 = 16777216 by decide, e, BitVec.ofNat_toNat, BitVec.setWidth_eq]
  · simp only [Spec.hashWord, Spec.wordOctets, if_true, List.getD_cons_zero, List.getD_cons_succ, u, Nat.pow_zero, Nat.div_one,
      Nat.pow_one, show (256 : Nat) ^ 2 = 65536 by decide, show (256 : Nat) ^ 3 = 16777216 by decide]
    rw [show w.toNat / 16777216 % 256 * 2 ^ 24 + w.toNat / 65536 % 256 * 2 ^ 16 + w.toNat / 256 % 256 * 2 ^ 8 + w.toNat % 256 = w.toNat by omega]
    simp

theorem hashKey_flat (big : Bool) : ∀ ws : List (BitVec 32), Spec.hashKey big (ws.flatMap (Spec.wordOctets big)) = ws
  | [] => rfl
  | w :: ws => by
    have ih := hashKey_flat big ws
    have hw := word_of_octets big w
    obtain ⟨a, b, c, d, e⟩ : ∃ a b c d, Spec.wordOctets big w = [a, b, c, d] := by cases big <;> exact ⟨_, _, _, _, rfl⟩
    rw [List.flatMap_cons, e, List.cons_append, List.cons_append, List.cons_append, List.cons_append, List.nil_append, Spec.hashKey, ih, ← e, hw]

/-- An array of words and the octets it consists of. -/
theorem words_octets (big : Bool) (ws : List (BitVec 32)) (seed seed2 : BitVec 32) :
    Spec.hashWords ws seed seed2 = Spec.hashOctets big (ws.flatMap (Spec.wordOctets big)) seed seed2 := by
  have hl : (ws.flatMap (Spec.wordOctets big)).length = 4 * ws.length := by
    induction ws with
    | nil => rfl
    | cons w ws ih =>
      have : (Spec.wordOctets big w).length = 4 := by cases big <;> rfl
      simp only [List.flatMap_cons, List.length_append, ih, this, List.length_cons]
      omega
  simp only [Spec.hashWords, Spec.hashOctets, hashKey_flat, hl]

/-- An array of words and the octets it consists of (the length being counted in words or in octets): if the array lies in memory in little-endian order,
`my_hashword2` and `my_hashlittle2` agree, and `my_hashword` and `my_hashlittle`; if it lies in big-endian order, `my_hashword` and `my_hashbig`. -/
theorem C86_words (cfg : LkCfg) (base : Nat) (ws : List (BitVec 32)) (seed seed2 : BitVec 32) :
    hashlittle2 cfg base (ws.flatMap (Spec.wordOctets false)) (4 * ws.length) seed seed2 = hashword2 ws ws.length seed seed2 ∧
    hashlittle cfg base (ws.flatMap (Spec.wordOctets false)) (4 * ws.length) seed = hashword ws ws.length seed ∧
    hashbig cfg base (ws.flatMap (Spec.wordOctets true)) (4 * ws.length) seed = hashword ws ws.length seed := by
  have hl : ∀ big : Bool, (ws.flatMap (Spec.wordOctets big)).length = 4 * ws.length := by
    intro big
    induction ws with
    | nil => rfl
    | cons w ws ih =>
      have : (Spec.wordOctets big w).length = 4 := by cases big <;> rfl
      simp only [List.flatMap_cons, List.length_append, ih, this, List.length_cons]
      omega
  have hf : (ws.flatMap (Spec.wordOctets false)).take (4 * ws.length) = ws.flatMap (Spec.wordOctets false) := List.take_of_length_le (by rw [hl])
  have ht : (ws.flatMap (Spec.wordOctets true)).take (4 * ws.length) = ws.flatMap (Spec.wordOctets true) := List.take_of_length_le (by rw [hl])
  refine ⟨?_, ?_, ?_⟩
  · rw [C86_hashlittle2 cfg base (by rw [hl]) (fun _ _ _ => by rw [hl]; omega), C86_hashword2 (Nat.le_refl _), hf, List.take_length,
      words_octets false]
  · rw [C86_hashlittle cfg base (by rw [hl]) (fun _ _ _ => by rw [hl]; omega), C86_hashword (Nat.le_refl _), hf, List.take_length,
      words_octets false]
  · rw [C86_hashbig cfg base (by rw [hl]) (fun _ _ _ => by rw [hl]; omega), C86_hashword (Nat.le_refl _), ht, List.take_length,
      words_octets true]

theorem mixRound_bij (k : Nat) : Function.Bijective (Spec.mixRound k) := by
  refine Function.bijective_iff_has_inverse.mpr
    ⟨fun s => ((s.2.2 ^^^ (s.2.1 - s.1).rotateLeft k) + (s.2.1 - s.1), s.1, s.2.1 - s.1), ?_, ?_⟩
  · rintro ⟨a, b, c⟩
    simp [Spec.mixRound, BitVec.xor_assoc, BitVec.add_sub_cancel, BitVec.sub_add_cancel]
  · rintro ⟨a, b, c⟩
    simp [Spec.mixRound, BitVec.xor_assoc, BitVec.add_sub_cancel, BitVec.sub_add_cancel]

theorem finalRound_bij (k : Nat) : Function.Bijective (Spec.finalRound k) := by
  refine Function.bijective_iff_has_inverse.mpr ⟨fun s => (s.2.2, s.1, (s.2.1 + s.1.rotateLeft k) ^^^ s.1), ?_, ?_⟩
  · rintro ⟨a, b, c⟩
    simp [Spec.finalRound, BitVec.xor_assoc, BitVec.add_sub_cancel, BitVec.sub_add_cancel]
  · rintro ⟨a, b, c⟩
    simp [Spec.finalRound, BitVec.xor_assoc, BitVec.add_sub_cancel, BitVec.sub_add_cancel]

/-- The macro `mix` is reversible, as its comment says (libmy/lookup3.c:79-82). -/
theorem C86_mix_reversible : Function.Bijective lkMix := by
  rw [show lkMix = Spec.mix from funext lkMix_eq]
  exact (mixRound_bij 4).comp ((mixRound_bij 19).comp ((mixRound_bij 16).comp ((mixRound_bij 8).comp ((mixRound_bij 6).comp (mixRound_bij 4)))))

/-- The macro `final` loses nothing of the three registers. -/
theorem C86_final_reversible : Function.Bijective lkFinal := by
  rw [show lkFinal = Spec.final from funext lkFinal_eq]
  have h := (finalRound_bij 24).comp ((finalRound_bij 14).comp ((finalRound_bij 4).comp ((finalRound_bij 16).comp ((finalRound_bij 25).comp
    ((finalRound_bij 11).comp (finalRound_bij 14))))))
  have hr : Function.Bijective (fun s : Spec.Regs => ((s.2.2, s.1, s.2.1) : Spec.Regs)) :=
    Function.bijective_iff_has_inverse.mpr ⟨fun s => (s.2.1, s.2.2, s.1), fun _ => rfl, fun _ => rfl⟩
  exact hr.comp h

/-- The claim that no octet outside the key is read is false: without `VALGRIND`, on the machine whose byte order suits the function, a key at an
address divisible by four whose length is not, is read beyond its end. -/
theorem C86_inside_violated (cfg : LkCfg) (base : Nat) (key : List UInt8) (seed : BitVec 32) (hv : cfg.valgrind = false) (hb : base % 4 = 0)
    (hk : key.length % 4 ≠ 0) : (cfg.little = true → hashlittle cfg base key key.length seed = ub) ∧
      (cfg.big = true → hashbig cfg base key key.length seed = ub) := by
  have hr : RdAll key 0 key := rdAll_of_drop (r := []) _ (by simp)
  have h3 : base &&& 3 = 0 := by rw [show (3 : Nat) = 2 ^ 2 - 1 by decide, Nat.and_two_pow_sub_one_eq_mod]; exact hb
  constructor
  · intro hl
    unfold hashlittle lkLittle
    dsimp only
    rw [if_pos ⟨hl, h3⟩]
    simp only [hv, Bool.false_eq_true, if_false]
    rw [litMask_over _ _ _ _ key hr rfl (by omega) hk (by omega)]
    rfl
  · intro hl
    unfold hashbig lkBigger
    dsimp only
    rw [if_pos ⟨hl, h3⟩]
    simp only [hv, Bool.false_eq_true, if_false]
    rw [bigMask_over _ _ _ _ key hr rfl (by omega) hk (by omega)]
    rfl

/-- Concrete cases: the self test of the published source, `hashlittle("Four score and seven years ago", 30, 0) = 0x17770551`, at an even address
that is not a multiple of four, where exactly the key is readable; and a key of eleven octets at a multiple of four. -/
example : hashlittle ⟨true, false, false⟩ 2 (ascii "Four score and seven years ago") 30 0 = ok 0x17770551#32 := by decide +kernel
example : (Spec.hashOctets false (ascii "Four score and seven years ago") 0 0).1 = 0x17770551#32 := by decide +kernel
example : hashlittle ⟨true, false, false⟩ 4 (ascii "wdns lookup!") 11 7 = hashlittle ⟨true, false, true⟩ 4 (ascii "wdns lookup") 11 7 := by decide +kernel
example : hashlittle ⟨true, false, false⟩ 4 (ascii "wdns lookup") 11 7 = ub := (C86_inside_violated _ 4 _ 7 rfl (by decide) (by decide)).1 rfl
example : hashword [1#32, 2#32, 3#32, 4#32] 4 9 = hashbig ⟨false, true, false⟩ 8 [0, 0, 0, 1, 0, 0, 0, 2, 0, 0, 0, 3, 0, 0, 0, 4] 16 9 := by decide +kernel

end Wdns
