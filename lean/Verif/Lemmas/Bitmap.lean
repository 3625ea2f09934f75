import Verif.Lemmas.ScanBase
import Verif.Spec.RdataScan

/-! Helper lemmas: type bitmaps. -/

namespace Wdns
open Outcome Spec

theorem bit_or_fin : ∀ b < 256, ∀ k < 8, ∀ j < 8,
    ((UInt8.ofNat b ||| 0x80 >>> UInt8.ofNat k).toNat / 2 ^ (7 - j) % 2 = 1) ↔ (b / 2 ^ (7 - j) % 2 = 1 ∨ j = k) := by
  decide +kernel

theorem bits_byte_fin : ∀ b < 256, b = b / 128 % 2 * 128 + b / 64 % 2 * 64 + b / 32 % 2 * 32 + b / 16 % 2 * 16 +
    b / 8 % 2 * 8 + b / 4 % 2 * 4 + b / 2 % 2 * 2 + b % 2 := by decide +kernel

theorem bit_or (b : UInt8) {k j : Nat} (hk : k < 8) (hj : j < 8) :
    ((b ||| 0x80 >>> UInt8.ofNat k).toNat / 2 ^ (7 - j) % 2 = 1) ↔ (b.toNat / 2 ^ (7 - j) % 2 = 1 ∨ j = k) := by
  have := bit_or_fin b.toNat (u8_lt b) k hk j hj
  rwa [u8_ofNat_toNat] at this

theorem byte_ext {a b : UInt8} (h : ∀ j < 8, (a.toNat / 2 ^ (7 - j) % 2 = 1) ↔ (b.toNat / 2 ^ (7 - j) % 2 = 1)) : a = b := by
  have bit : ∀ x y : Nat, (x % 2 = 1 ↔ y % 2 = 1) → x % 2 = y % 2 := by intro x y h; omega
  have h0 := bit _ _ (h 0 (by omega))
  have h1 := bit _ _ (h 1 (by omega))
  have h2 := bit _ _ (h 2 (by omega))
  have h3 := bit _ _ (h 3 (by omega))
  have h4 := bit _ _ (h 4 (by omega))
  have h5 := bit _ _ (h 5 (by omega))
  have h6 := bit _ _ (h 6 (by omega))
  have h7 := bit _ _ (h 7 (by omega))
  simp only [Nat.sub_zero, Nat.reduceSub, Nat.reducePow, Nat.div_one] at h0 h1 h2 h3 h4 h5 h6 h7
  apply UInt8.toNat.inj
  rw [bits_byte_fin a.toNat (u8_lt a), h0, h1, h2, h3, h4, h5, h6, h7, ← bits_byte_fin b.toNat (u8_lt b)]

theorem bitSet_iff (s : List UInt8) (i : Nat) : bitSet s i = true ↔ (s.getD (i / 8) 0).toNat / 2 ^ (7 - i % 8) % 2 = 1 := by
  unfold bitSet; simp

theorem bitSet_range {s : List UInt8} {i : Nat} (h : bitSet s i = true) : i < 8 * s.length := by
  rw [bitSet_iff] at h
  by_cases hi : i / 8 < s.length
  · omega
  · rw [List.getD_eq_getElem?_getD, List.getElem?_eq_none (by omega)] at h; simp at h

theorem bitSet_set {bm : List UInt8} {byte bit : Nat} (hb : byte < bm.length) (hk : bit < 8) (i : Nat) :
    bitSet (bm.set byte (bm.getD byte 0 ||| 0x80 >>> UInt8.ofNat bit)) i = true ↔ (bitSet bm i = true ∨ i = 8 * byte + bit) := by
  rw [bitSet_iff, bitSet_iff]
  by_cases h : i / 8 = byte
  · have e : (bm.set byte (bm.getD byte 0 ||| 0x80 >>> UInt8.ofNat bit)).getD (i / 8) 0 = bm.getD byte 0 ||| 0x80 >>> UInt8.ofNat bit := by
      rw [h, List.getD_eq_getElem?_getD, List.getElem?_set_self hb]; rfl
    rw [e, bit_or _ hk (by omega), h]
    constructor
    · rintro (h1 | h1)
      · exact Or.inl h1
      · right; omega
    · rintro (h1 | h1)
      · exact Or.inl h1
      · right; omega
  · have e : (bm.set byte (bm.getD byte 0 ||| 0x80 >>> UInt8.ofNat bit)).getD (i / 8) 0 = bm.getD (i / 8) 0 := by
      rw [List.getD_eq_getElem?_getD, List.getElem?_set_ne (by omega), List.getD_eq_getElem?_getD]
    rw [e]
    constructor
    · exact Or.inl
    · rintro (h1 | h1)
      · exact h1
      · omega

theorem bitSet_take {bm : List UInt8} {n i : Nat} (h : i < 8 * n) : bitSet (bm.take n) i = bitSet bm i := by
  unfold bitSet
  rw [List.getD_eq_getElem?_getD, List.getElem?_take_of_lt (by omega), List.getD_eq_getElem?_getD]

theorem byte_ne_zero {b : UInt8} {k : Nat} (h : b.toNat / 2 ^ k % 2 = 1) : b ≠ 0 := by
  intro e; subst e; simp at h

theorem exists_bit {b : UInt8} (h : b ≠ 0) : ∃ j < 8, b.toNat / 2 ^ (7 - j) % 2 = 1 := by
  have hf : ∀ n < 256, n ≠ 0 → ∃ j ∈ List.range 8, n / 2 ^ (7 - j) % 2 = 1 := by decide +kernel
  obtain ⟨j, hj, h'⟩ := hf b.toNat (u8_lt b) (fun e => h (UInt8.toNat.inj (by simpa using e)))
  exact ⟨j, List.mem_range.mp hj, h'⟩

theorem mem_windowTypes {w : UInt8 × List UInt8} {t : Nat} :
    t ∈ windowTypes w ↔ ∃ i, bitSet w.2 i = true ∧ t = w.1.toNat * 256 + i := by
  unfold windowTypes
  simp only [List.mem_map, List.mem_filter, List.mem_range]
  constructor
  · rintro ⟨i, ⟨-, h⟩, rfl⟩; exact ⟨i, h, rfl⟩
  · rintro ⟨i, h, rfl⟩; exact ⟨i, ⟨bitSet_range h, h⟩, rfl⟩

/-- The state of the window under construction. -/
structure BmInv (win blen : Nat) (bm : List UInt8) : Prop where
  len : bm.length = 32
  wlt : win < 256
  ble : blen ≤ 32
  bits : ∀ i, bitSet bm i = true → i < 8 * blen
  last : 0 < blen → bm.getD (blen - 1) 0 ≠ 0

/-- The windows the state stands for. -/
def curWin (win blen : Nat) (bm : List UInt8) : List (UInt8 × List UInt8) :=
  if blen = 0 then [] else [(UInt8.ofNat win, bm.take blen)]

theorem BmInv.zero {win : Nat} (h : win < 256) : BmInv win 0 (List.replicate 32 0) where
  len := rfl
  wlt := h
  ble := by omega
  bits := by
    intro i hi
    rw [bitSet_iff] at hi
    exfalso
    have : (List.replicate 32 (0 : UInt8)).getD (i / 8) 0 = 0 := by
      rw [List.getD_eq_getElem?_getD, List.getElem?_replicate]
      split <;> rfl
    rw [this] at hi
    simp at hi
  last := by omega

theorem BmInv.add {win blen : Nat} {bm : List UInt8} (h : BmInv win blen bm) {byte bit : Nat} (hb : byte < 32) (hk : bit < 8)
    (hm : blen ≤ byte + 1) :
    BmInv win (1 + byte) (bm.set byte (bm.getD byte 0 ||| 0x80 >>> UInt8.ofNat bit)) where
  len := by simp [h.len]
  wlt := h.wlt
  ble := by omega
  bits := by
    intro i hi
    rw [bitSet_set (by rw [h.len]; exact hb) hk] at hi
    rcases hi with hi | hi
    · have := h.bits i hi; omega
    · omega
  last := by
    intro _
    rw [show 1 + byte - 1 = byte by omega]
    have : bitSet (bm.set byte (bm.getD byte 0 ||| 0x80 >>> UInt8.ofNat bit)) (8 * byte + bit) = true :=
      (bitSet_set (by rw [h.len]; exact hb) hk _).mpr (Or.inr rfl)
    rw [bitSet_iff, show (8 * byte + bit) / 8 = byte by omega] at this
    exact byte_ne_zero this

theorem BmInv.canon {win blen : Nat} {bm : List UInt8} (h : BmInv win blen bm) : CanonWindows (curWin win blen bm) := by
  unfold curWin
  split
  · exact ⟨List.Pairwise.nil, by simp⟩
  · refine ⟨List.pairwise_singleton _ _, ?_⟩
    intro w hw
    rw [List.mem_singleton] at hw
    subst hw
    have hl := h.len
    have hb := h.ble
    refine ⟨by simp; omega, by simp; omega, ?_⟩
    have := h.last (by omega)
    simp only [ne_eq]
    rw [List.getLast?_eq_getElem?, List.length_take, hl, Nat.min_eq_left hb, List.getElem?_take_of_lt (by omega)]
    intro e
    rw [List.getD_eq_getElem?_getD, e] at this
    simp at this

theorem BmInv.mem {win blen : Nat} {bm : List UInt8} (h : BmInv win blen bm) (t : Nat) :
    t ∈ (curWin win blen bm).flatMap windowTypes ↔ ∃ i, bitSet bm i = true ∧ t = win * 256 + i := by
  unfold curWin
  split
  · rename_i h0
    simp only [List.flatMap_nil, List.not_mem_nil, false_iff, not_exists, not_and]
    intro i hi
    have := h.bits i hi; omega
  · simp only [List.flatMap_cons, List.flatMap_nil, List.append_nil]
    rw [mem_windowTypes]
    simp only
    rw [toNat_ofNat_lt h.wlt]
    constructor
    · rintro ⟨i, hi, e⟩
      have := bitSet_range hi
      simp at this
      rw [bitSet_take (by omega)] at hi
      exact ⟨i, hi, e⟩
    · rintro ⟨i, hi, e⟩
      refine ⟨i, ?_, e⟩
      rw [bitSet_take (h.bits i hi)]; exact hi

theorem putWindow_eq {win blen : Nat} {bm : List UInt8} (h : BmInv win blen bm) (u : List UInt8) (h0 : blen ≠ 0) :
    putWindow win blen bm u = u ++ (curWin win blen bm).flatMap encWindow := by
  unfold putWindow curWin encWindow
  rw [if_neg h0]
  have hl := h.len
  have hb := h.ble
  simp only [List.flatMap_cons, List.flatMap_nil, List.append_nil, List.length_take, hl, Nat.min_eq_left hb,
    List.append_assoc, List.cons_append, List.nil_append]

theorem CanonWindows.append {a b : List (UInt8 × List UInt8)} (ha : CanonWindows a) (hb : CanonWindows b)
    (h : ∀ x ∈ a, ∀ y ∈ b, x.1.toNat < y.1.toNat) : CanonWindows (a ++ b) := by
  refine ⟨List.pairwise_append.mpr ⟨ha.1, hb.1, h⟩, ?_⟩
  intro w hw
  rcases List.mem_append.mp hw with hw | hw
  · exact ha.2 w hw
  · exact hb.2 w hw

theorem bmLoop_spec (ts : List Nat) : ∀ (win blen : Nat) (bm : List UInt8) (last : Nat) (u : List UInt8), BmInv win blen bm →
    ts.Pairwise (· ≤ ·) → (∀ t ∈ ts, t < 65536) → (∀ t ∈ ts, win ≤ t / 256) →
    (∀ t ∈ ts, t / 256 = win → blen ≤ t % 256 / 8 + 1) →
    (last = 65536 ∨ ∃ i, bitSet bm i = true ∧ last = win * 256 + i) →
    ∃ ws, bmLoop ts win blen bm last u = u ++ ws.flatMap encWindow ∧ CanonWindows ws ∧ (∀ w ∈ ws, win ≤ w.1.toNat) ∧
      ∀ t, t ∈ ws.flatMap windowTypes ↔ ((∃ i, bitSet bm i = true ∧ t = win * 256 + i) ∨ t ∈ ts) := by
  induction ts with
  | nil =>
    intro win blen bm last u hi _ _ _ _ _
    refine ⟨curWin win blen bm, ?_, hi.canon, ?_, ?_⟩
    · unfold bmLoop
      split
      · rename_i h; rw [putWindow_eq hi u h]
      · rename_i h
        have : blen = 0 := by omega
        subst this
        simp [curWin]
    · intro w hw
      unfold curWin at hw
      split at hw
      · simp at hw
      · rw [List.mem_singleton] at hw; subst hw; simp only; rw [toNat_ofNat_lt hi.wlt]
    · intro t; rw [hi.mem]; simp
  | cons t ts ih =>
    intro win blen bm last u hi hs hlt hw hb hl
    obtain ⟨hs1, hs2⟩ := List.pairwise_cons.mp hs
    unfold bmLoop
    simp only
    have hlt' : ∀ t ∈ ts, t < 65536 := fun x hx => hlt x (by simp [hx])
    have ht := hlt t (by simp)
    by_cases h1 : t = last
    · rw [if_pos h1]
      obtain ⟨ws, e1, e2, e3, e4⟩ := ih win blen bm last u hi hs2 hlt' (fun x hx => hw x (by simp [hx])) (fun x hx => hb x (by simp [hx])) hl
      refine ⟨ws, e1, e2, e3, fun x => ?_⟩
      rw [e4 x]
      constructor
      · rintro (h | h)
        · exact Or.inl h
        · exact Or.inr (by simp [h])
      · rintro (h | h)
        · exact Or.inl h
        · rcases List.mem_cons.mp h with rfl | h
          · left
            rcases hl with hl | hl
            · omega
            · rw [← h1] at hl; exact hl
          · exact Or.inr h
    · rw [if_neg h1]
      by_cases h2 : t / 256 = win
      · rw [if_neg (by simpa using h2)]
        have hi' := hi.add (byte := t % 256 / 8) (bit := t % 256 % 8) (by omega) (by omega) (hb t (by simp) h2)
        obtain ⟨ws, e1, e2, e3, e4⟩ := ih win _ _ t u hi' hs2 hlt' (fun x hx => hw x (by simp [hx]))
          (fun x hx e => by have := hs1 x hx; omega)
          (Or.inr ⟨t % 256, (bitSet_set (by rw [hi.len]; omega) (by omega) _).mpr (Or.inr (by omega)), by omega⟩)
        refine ⟨ws, e1, e2, e3, fun x => ?_⟩
        rw [e4 x]
        constructor
        · rintro (⟨i, hi1, hi2⟩ | h)
          · rw [bitSet_set (by rw [hi.len]; omega) (by omega)] at hi1
            rcases hi1 with hi1 | hi1
            · exact Or.inl ⟨i, hi1, hi2⟩
            · exact Or.inr (by have : x = t := by omega
                               simp [this])
          · exact Or.inr (by simp [h])
        · rintro (⟨i, hi1, hi2⟩ | h)
          · exact Or.inl ⟨i, (bitSet_set (by rw [hi.len]; omega) (by omega) _).mpr (Or.inl hi1), hi2⟩
          · rcases List.mem_cons.mp h with rfl | h
            · exact Or.inl ⟨x % 256, (bitSet_set (by rw [hi.len]; omega) (by omega) _).mpr (Or.inr (by omega)), by omega⟩
            · exact Or.inr h
      · rw [if_pos (by simpa using h2)]
        have hwt := hw t (by simp)
        have hz := BmInv.zero (win := t / 256) (by omega)
        have hz0 : (List.replicate 32 (0 : UInt8)).getD (t % 256 / 8) 0 = 0 := by
          rw [List.getD_eq_getElem?_getD, List.getElem?_replicate]
          split <;> rfl
        have hi' := hz.add (byte := t % 256 / 8) (bit := t % 256 % 8) (by omega) (by omega) (by omega)
        have hbs := fun i => bitSet_set (bm := List.replicate 32 0) (byte := t % 256 / 8) (bit := t % 256 % 8) (by simp; omega) (by omega) i
        rw [hz0, UInt8.zero_or] at hi'
        simp only [hz0, UInt8.zero_or] at hbs
        obtain ⟨ws, e1, e2, e3, e4⟩ := ih (t / 256) _ _ t (if blen > 0 then putWindow win blen bm u else u) hi' hs2 hlt'
          (fun x hx => by have := hs1 x hx; omega) (fun x hx e => by have := hs1 x hx; omega)
          (Or.inr ⟨t % 256, (hbs _).mpr (Or.inr (by omega)), by omega⟩)
        refine ⟨curWin win blen bm ++ ws, ?_, ?_, ?_, fun x => ?_⟩
        · rw [e1, List.flatMap_append, ← List.append_assoc]
          congr 1
          by_cases h0 : blen = 0
          · subst h0; simp [curWin]
          · rw [if_pos (by omega), putWindow_eq hi u h0]
        · refine CanonWindows.append hi.canon e2 ?_
          intro a ha b hb'
          have := e3 b hb'
          unfold curWin at ha
          split at ha
          · simp at ha
          · rw [List.mem_singleton] at ha; subst ha; simp only; rw [toNat_ofNat_lt hi.wlt]; omega
        · intro w hw'
          rcases List.mem_append.mp hw' with hw' | hw'
          · unfold curWin at hw'
            split at hw'
            · simp at hw'
            · rw [List.mem_singleton] at hw'; subst hw'; simp only; rw [toNat_ofNat_lt hi.wlt]
          · have := e3 w hw'; omega
        · rw [List.flatMap_append, List.mem_append, hi.mem, e4 x]
          constructor
          · rintro (h | ⟨i, hi1, hi2⟩ | h)
            · exact Or.inl h
            · rw [hbs] at hi1
              rcases hi1 with hi1 | hi1
              · have := hz.bits i hi1; omega
              · exact Or.inr (by have : x = t := by omega
                                 simp [this])
            · exact Or.inr (by simp [h])
          · rintro (h | h)
            · exact Or.inl h
            · rcases List.mem_cons.mp h with rfl | h
              · exact Or.inr (Or.inl ⟨x % 256, (hbs _).mpr (Or.inr (by omega)), by omega⟩)
              · exact Or.inr (Or.inr h)

/-- The bitmap built from any list of types. -/
theorem bmLoop_canon (ts : List Nat) (h : ∀ t ∈ ts, t < 65536) (u : List UInt8) :
    ∃ f, bmLoop (qsort16 ts) 0 0 (List.replicate 32 0) 65536 u = u ++ f ∧ CanonBitmap f (· ∈ ts) := by
  have hm : ∀ t, t ∈ qsort16 ts ↔ t ∈ ts := fun t => List.mem_insertionSort _
  obtain ⟨ws, e1, e2, -, e4⟩ := bmLoop_spec (qsort16 ts) 0 0 (List.replicate 32 0) 65536 u (BmInv.zero (by omega))
    (List.pairwise_insertionSort _ _) (fun t ht => h t ((hm t).mp ht)) (by simp) (by simp) (Or.inl rfl)
  refine ⟨_, e1, ws, e2, rfl, fun t => ?_⟩
  rw [e4 t, hm]
  constructor
  · rintro (⟨i, hi, -⟩ | h)
    · have := (BmInv.zero (win := 0) (by omega)).bits i hi; omega
    · exact h
  · exact Or.inr

/-! ## uniqueness -/

theorem canon_has_type {w : UInt8 × List UInt8} (h : 1 ≤ w.2.length ∧ w.2.length ≤ 32 ∧ w.2.getLast? ≠ some 0) :
    ∃ i, i < 256 ∧ 8 * (w.2.length - 1) ≤ i ∧ bitSet w.2 i = true := by
  obtain ⟨h1, h2, h3⟩ := h
  have hg : w.2.getD (w.2.length - 1) 0 ≠ 0 := by
    intro e
    apply h3
    rw [List.getLast?_eq_getElem?]
    rw [List.getD_eq_getElem?_getD, List.getElem?_eq_getElem (by omega)] at e
    rw [List.getElem?_eq_getElem (by omega)]
    simpa using e
  obtain ⟨j, hj, hb⟩ := exists_bit hg
  refine ⟨8 * (w.2.length - 1) + j, by omega, by omega, ?_⟩
  rw [bitSet_iff, show (8 * (w.2.length - 1) + j) / 8 = w.2.length - 1 by omega, show (8 * (w.2.length - 1) + j) % 8 = j by omega]
  exact hb

theorem bitmap_ext {a b : List UInt8} (ha : 1 ≤ a.length ∧ a.length ≤ 32 ∧ a.getLast? ≠ some 0)
    (hb : 1 ≤ b.length ∧ b.length ≤ 32 ∧ b.getLast? ≠ some 0) (h : ∀ i, bitSet a i = true ↔ bitSet b i = true) : a = b := by
  have hl : ∀ {a b : List UInt8}, (1 ≤ a.length ∧ a.length ≤ 32 ∧ a.getLast? ≠ some 0) → (∀ i, bitSet a i = true → bitSet b i = true) →
      a.length ≤ b.length := by
    intro a b ha h
    obtain ⟨i, -, h1, h2⟩ := canon_has_type (w := (0, a)) ha
    have := bitSet_range (h i h2)
    simp only at h1
    omega
  have hlen := Nat.le_antisymm (hl ha fun i => (h i).mp) (hl hb fun i => (h i).mpr)
  apply List.ext_getElem hlen
  intro n h1 h2
  apply byte_ext
  intro j hj
  have := h (8 * n + j)
  rw [bitSet_iff, bitSet_iff, show (8 * n + j) / 8 = n by omega, show (8 * n + j) % 8 = j by omega,
    List.getD_eq_getElem?_getD, List.getD_eq_getElem?_getD, List.getElem?_eq_getElem h1, List.getElem?_eq_getElem h2] at this
  exact this

theorem mem_win_lt {w : UInt8 × List UInt8} (h : w.2.length ≤ 32) {i : Nat} (hb : bitSet w.2 i = true) : i < 256 := by
  have := bitSet_range hb; omega

/-- A member of the windows, by window number and bit. -/
theorem mem_types {ws : List (UInt8 × List UInt8)} (h : CanonWindows ws) (n i : Nat) (hi : i < 256) :
    n * 256 + i ∈ ws.flatMap windowTypes ↔ ∃ w ∈ ws, w.1.toNat = n ∧ bitSet w.2 i = true := by
  rw [List.mem_flatMap]
  constructor
  · rintro ⟨w, hw, hm⟩
    obtain ⟨k, hk, e⟩ := mem_windowTypes.mp hm
    have := mem_win_lt (h.2 w hw).2.1 hk
    have e1 : k = i := by omega
    have e2 : w.1.toNat = n := by omega
    exact ⟨w, hw, e2, e1 ▸ hk⟩
  · rintro ⟨w, hw, rfl, hb⟩
    exact ⟨w, hw, mem_windowTypes.mpr ⟨i, hb, rfl⟩⟩

theorem canonWindows_unique : ∀ {ws ws' : List (UInt8 × List UInt8)}, CanonWindows ws → CanonWindows ws' →
    (∀ t, t ∈ ws.flatMap windowTypes ↔ t ∈ ws'.flatMap windowTypes) → ws = ws' := by
  have hne : ∀ {w : UInt8 × List UInt8} {ws}, CanonWindows (w :: ws) → ∃ i, i < 256 ∧ bitSet w.2 i = true ∧ w.1.toNat * 256 + i ∈ (w :: ws).flatMap windowTypes := by
    intro w ws h
    obtain ⟨i, h1, -, h2⟩ := canon_has_type (h.2 w (by simp))
    exact ⟨i, h1, h2, (mem_types h _ i h1).mpr ⟨w, by simp, rfl, h2⟩⟩
  intro ws
  induction ws with
  | nil =>
    intro ws' _ h' he
    cases ws' with
    | nil => rfl
    | cons w' ws' =>
      obtain ⟨i, -, -, h⟩ := hne h'
      have := (he _).mpr h
      simp at this
  | cons w ws ih =>
    intro ws' h h' he
    cases ws' with
    | nil =>
      obtain ⟨i, -, -, h⟩ := hne h
      have := (he _).mp h
      simp at this
    | cons w' ws' =>
      have hp := List.pairwise_cons.mp h.1
      have hp' := List.pairwise_cons.mp h'.1
      have hle : ∀ {a b : UInt8 × List UInt8} {as bs}, CanonWindows (a :: as) → CanonWindows (b :: bs) →
          (∀ t, t ∈ (a :: as).flatMap windowTypes → t ∈ (b :: bs).flatMap windowTypes) → b.1.toNat ≤ a.1.toNat := by
        intro a b as bs ha hb hs
        obtain ⟨i, h1, -, h3⟩ := hne ha
        obtain ⟨x, hx, e, -⟩ := (mem_types hb _ i h1).mp (hs _ h3)
        rcases List.mem_cons.mp hx with rfl | hx
        · omega
        · have := (List.pairwise_cons.mp hb.1).1 x hx; omega
      have hnum : w.1.toNat = w'.1.toNat := Nat.le_antisymm (hle h' h fun t => (he t).mpr) (hle h h' fun t => (he t).mp)
      have hbits : ∀ i, bitSet w.2 i = true ↔ bitSet w'.2 i = true := by
        intro i
        by_cases hi : i < 256
        · have := he (w.1.toNat * 256 + i)
          rw [mem_types h _ i hi, mem_types h' _ i hi] at this
          constructor
          · intro hb
            obtain ⟨x, hx, e, hb'⟩ := this.mp ⟨w, by simp, rfl, hb⟩
            rcases List.mem_cons.mp hx with rfl | hx
            · exact hb'
            · have := hp'.1 x hx; omega
          · intro hb
            obtain ⟨x, hx, e, hb'⟩ := this.mpr ⟨w', by simp, hnum.symm, hb⟩
            rcases List.mem_cons.mp hx with rfl | hx
            · exact hb'
            · have := hp.1 x hx; omega
        · constructor
          · intro hb; exact absurd (mem_win_lt (h.2 w (by simp)).2.1 hb) hi
          · intro hb; exact absurd (mem_win_lt (h'.2 w' (by simp)).2.1 hb) hi
      have hww : w = w' := by
        have h1 : w.1 = w'.1 := UInt8.toNat.inj hnum
        have h2 : w.2 = w'.2 := bitmap_ext (h.2 w (by simp)) (h'.2 w' (by simp)) hbits
        exact Prod.ext h1 h2
      subst hww
      congr 1
      have hc : CanonWindows ws := ⟨hp.2, fun x hx => h.2 x (by simp [hx])⟩
      have hc' : CanonWindows ws' := ⟨hp'.2, fun x hx => h'.2 x (by simp [hx])⟩
      refine ih hc hc' ?_
      intro t
      have key : ∀ {as bs : List (UInt8 × List UInt8)}, (∀ x ∈ as, w.1.toNat < x.1.toNat) → CanonWindows as →
          (∀ t, t ∈ (w :: as).flatMap windowTypes → t ∈ (w :: bs).flatMap windowTypes) → t ∈ as.flatMap windowTypes → t ∈ bs.flatMap windowTypes := by
        intro as bs hgt ha hs ht
        have := hs t (by rw [List.flatMap_cons]; exact List.mem_append_right _ ht)
        rw [List.flatMap_cons, List.mem_append] at this
        rcases this with hw | hb
        · obtain ⟨x, hx, hm⟩ := List.mem_flatMap.mp ht
          obtain ⟨i, hi, e⟩ := mem_windowTypes.mp hw
          obtain ⟨k, hk, e'⟩ := mem_windowTypes.mp hm
          have := hgt x hx
          have := mem_win_lt (h.2 w (by simp)).2.1 hi
          have := mem_win_lt (ha.2 x hx).2.1 hk
          omega
        · exact hb
      exact ⟨key hp.1 hc fun t => (he t).mp, key hp'.1 hc' fun t => (he t).mpr⟩

theorem canonBitmap_unique {f f' : List UInt8} {S S' : Nat → Prop} (h : CanonBitmap f S) (h' : CanonBitmap f' S') (he : ∀ t, S t ↔ S' t) : f = f' := by
  obtain ⟨ws, h1, rfl, h2⟩ := h
  obtain ⟨ws', h1', rfl, h2'⟩ := h'
  rw [canonWindows_unique h1 h1' fun t => by rw [h2, h2', he]]

end Wdns
