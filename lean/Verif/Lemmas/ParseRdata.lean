import Verif.Model.Parse
import Verif.Spec.Rdata
import Verif.Props.NameOps

/-! Helper lemmas for rdata parsing. -/

namespace Wdns
open Outcome Spec

/-- The bytes of `mem` at offset `o` are `w`. -/
def Win (mem : List UInt8) (o : Nat) (w : List UInt8) : Prop := o ≤ mem.length ∧ w <+: mem.drop o

theorem Win.len {mem o w} (h : Win mem o w) : o + w.length ≤ mem.length := by
  have := h.2.length_le
  have := h.1
  simp at *; omega

theorem Win.eq {mem o w} (h : Win mem o w) : (mem.drop o).take w.length = w := prefix_drop_iff.mp h.2

theorem Win.mk' {mem : List UInt8} {o n : Nat} (h : o + n ≤ mem.length) :
    Win mem o ((mem.drop o).take n) := ⟨by omega, List.take_prefix _ _⟩

theorem Win.rd {mem : List UInt8} {o : Nat} {a : UInt8} {w : List UInt8} (h : Win mem o (a :: w)) :
    rd mem o = ok a := rd_ok.mpr (prefix_drop_cons.mp h.2).1

theorem Win.tail {mem : List UInt8} {o : Nat} {a : UInt8} {w : List UInt8} (h : Win mem o (a :: w)) :
    Win mem (o + 1) w := by
  have := h.len
  exact ⟨by simp at this; omega, (prefix_drop_cons.mp h.2).2⟩

theorem Win.right {mem : List UInt8} {o : Nat} {f w : List UInt8} (h : Win mem o (f ++ w)) :
    Win mem (o + f.length) w := by
  have := h.len
  exact ⟨by simp at this; omega, (prefix_drop_append.mp h.2).2⟩

theorem Win.left {mem : List UInt8} {o : Nat} {f w : List UInt8} (h : Win mem o (f ++ w)) :
    Win mem o f := ⟨h.1, (prefix_drop_append.mp h.2).1⟩

theorem Win.rdN {mem : List UInt8} {o : Nat} {f : List UInt8} (h : Win mem o f) {n} (hn : n = f.length) :
    rdN mem o n = ok f := by
  subst hn; rw [rdN_ok h.len, h.eq]

theorem pCopy_win {mem : List UInt8} {src : Nat} {f rest out : List UInt8}
    (h : Win mem src (f ++ rest)) {b n : Nat} (hb : b = (f ++ rest).length) (hn : n = f.length) :
    pCopy mem ⟨src, b, out⟩ n = ok ⟨src + f.length, rest.length, out ++ f⟩ := by
  subst hb
  unfold pCopy
  rw [if_neg (by simp; omega), h.left.rdN hn, hn]
  simp

theorem pCopy_short {mem : List UInt8} {src b n : Nat} {out : List UInt8} (h : b < n) :
    pCopy mem ⟨src, b, out⟩ n = err .parseError := by simp [pCopy, h]

/-! ### repeated strings -/

theorem strings_cons_iff {l : UInt8} {w : List UInt8} :
    Strings (l :: w) ↔ ∃ s rest, w = s ++ rest ∧ s.length = l.toNat ∧ Strings rest := by
  constructor
  · intro h; cases h with
    | cons h1 h2 => exact ⟨_, _, rfl, h1, h2⟩
  · rintro ⟨s, rest, rfl, h1, h2⟩; exact .cons h1 h2

theorem strings_cons_iff' {l : UInt8} {w : List UInt8} :
    Strings (l :: w) ↔ l.toNat ≤ w.length ∧ Strings (w.drop l.toNat) := by
  rw [strings_cons_iff]
  constructor
  · rintro ⟨s, rest, rfl, h1, h2⟩; simp [← h1, h2]
  · rintro ⟨h1, h2⟩
    exact ⟨w.take l.toNat, w.drop l.toNat, by simp, by simp [h1], h2⟩

theorem pRepstring_spec {mem : List UInt8} : ∀ fuel w src out, w.length < fuel → Win mem src w →
    (Strings w ∧ pRepstring mem fuel ⟨src, w.length, out⟩ = ok ⟨src + w.length, 0, out ++ w⟩) ∨
    (¬ Strings w ∧ pRepstring mem fuel ⟨src, w.length, out⟩ = err .parseError) := by
  intro fuel
  induction fuel with
  | zero => intro w src out h; omega
  | succ fuel ih =>
    intro w src out hf hw
    cases w with
    | nil => left; simp [pRepstring, Strings.nil]
    | cons l w =>
      simp only [pRepstring, List.length_cons, gt_iff_lt, Nat.zero_lt_succ, if_true, hw.rd, ok_bind]
      by_cases hl : l.toNat ≤ w.length
      · have e : l :: w = (l :: w.take l.toNat) ++ w.drop l.toNat := by simp
        have hw2 : Win mem src ((l :: w.take l.toNat) ++ w.drop l.toNat) := e ▸ hw
        rw [pCopy_win hw2 (by rw [← e]; rfl) (by simp [hl])]
        simp only [ok_bind]
        have hr := hw2.right
        rcases ih (w.drop l.toNat) (src + (l :: w.take l.toNat).length) (out ++ l :: w.take l.toNat)
          (by simp at hf ⊢; omega) hr with ⟨h1, h2⟩ | ⟨h1, h2⟩
        · left
          refine ⟨strings_cons_iff'.mpr ⟨hl, h1⟩, ?_⟩
          rw [h2]
          simp; omega
        · right; exact ⟨fun h => h1 (strings_cons_iff'.mp h).2, h2⟩
      · right
        rw [pCopy_short (by omega)]
        exact ⟨fun h => hl (strings_cons_iff'.mp h).1, rfl⟩

/-! ### type bitmaps -/

theorem windows_iff {x l : UInt8} {w : List UInt8} :
    Windows (x :: l :: w) ↔ 1 ≤ l.toNat ∧ l.toNat ≤ 32 ∧ l.toNat ≤ w.length ∧ Windows (w.drop l.toNat) := by
  constructor
  · intro h; cases h with
    | cons h1 h2 h3 h4 => exact ⟨h1, h2, by simp [h3], by simpa [← h3] using h4⟩
  · rintro ⟨h1, h2, h3, h4⟩
    have := Windows.cons (w := x) (s := w.take l.toNat) h1 h2 (by simp [h3]) h4
    simpa using this

theorem not_windows_one {x : UInt8} : ¬ Windows [x] := by intro h; cases h

theorem pBitmap_spec {mem : List UInt8} : ∀ fuel w src out, w.length < fuel → Win mem src w →
    (Windows w ∧ pBitmap mem fuel ⟨src, w.length, out⟩ = ok ⟨src + w.length, 0, out ++ w⟩) ∨
    (¬ Windows w ∧ (pBitmap mem fuel ⟨src, w.length, out⟩ = err .outOfBounds ∨
      ∃ s o, pBitmap mem fuel ⟨src, w.length, out⟩ = ok ⟨s, 1, o⟩)) := by
  intro fuel
  induction fuel with
  | zero => intro w src out h; omega
  | succ fuel ih =>
    intro w src out hf hw
    match w, hf, hw with
    | [], _, _ => left; simp [pBitmap, Windows.nil]
    | [x], _, _ => right; exact ⟨not_windows_one, Or.inr ⟨src, out, by simp [pBitmap]⟩⟩
    | x :: l :: w, hf, hw =>
      have hl1 := hw.tail.rd
      simp only [pBitmap, List.length_cons, ge_iff_le, Nat.le_add_left, if_true, hl1, ok_bind]
      by_cases hb : 1 ≤ l.toNat ∧ l.toNat ≤ 32
      · simp only [hb, not_true, if_false, and_self]
        by_cases hl : l.toNat ≤ w.length
        · rw [if_pos (by omega)]
          have e : x :: l :: w = (x :: l :: w.take l.toNat) ++ w.drop l.toNat := by simp
          have hw2 : Win mem src ((x :: l :: w.take l.toNat) ++ w.drop l.toNat) := e ▸ hw
          rw [pCopy_win hw2 (by rw [← e]; rfl) (by simp [hl]; omega)]
          simp only [ok_bind]
          rcases ih (w.drop l.toNat) _ (out ++ x :: l :: w.take l.toNat)
            (by simp at hf ⊢; omega) hw2.right with ⟨h1, h2⟩ | ⟨h1, h2⟩
          · left
            refine ⟨windows_iff.mpr ⟨hb.1, hb.2, hl, h1⟩, ?_⟩
            rw [h2]; simp; omega
          · right; exact ⟨fun h => h1 (windows_iff.mp h).2.2.2, h2⟩
        · right
          rw [if_neg (by omega)]
          exact ⟨fun h => hl (windows_iff.mp h).2.2.1, Or.inl rfl⟩
      · right
        rw [if_pos hb]
        exact ⟨fun h => hb ⟨(windows_iff.mp h).1, (windows_iff.mp h).2.1⟩, Or.inl rfl⟩

/-! ### SvcParams -/

theorem alpnLoop_spec {mem : List UInt8} {val : Nat} {v : List UInt8} (hv : Win mem val v) :
    ∀ fuel i, v.length < fuel + i → i ≤ v.length →
    ∃ j, alpnLoop mem val v.length fuel i = ok j ∧ (j = v.length ↔ Strings (v.drop i)) := by
  intro fuel
  induction fuel with
  | zero => intro i h; omega
  | succ fuel ih =>
    intro i hf hi
    by_cases hlt : i < v.length
    · have e : v = v.take i ++ v[i] :: v.drop (i + 1) := by simp
      have hw : Win mem (val + i) (v[i] :: v.drop (i + 1)) := by
        have h := e ▸ hv
        have := h.right
        simpa [Nat.min_eq_left hi] using this
      simp only [alpnLoop, hlt, if_true, hw.rd, ok_bind]
      have ed : v.drop i = v[i] :: v.drop (i + 1) := by simp
      rw [ed, strings_cons_iff']
      by_cases hl : i + 1 + v[i].toNat ≤ v.length
      · obtain ⟨j, h1, h2⟩ := ih (i + 1 + v[i].toNat) (by omega) hl
        refine ⟨j, h1, ?_⟩
        rw [h2, List.drop_drop]
        simp; omega
      · refine ⟨i + 1 + v[i].toNat, ?_, ?_⟩
        · cases fuel with
          | zero => omega
          | succ f => simp [alpnLoop]; omega
        · simp; omega
    · have : i = v.length := by omega
      subst this
      exact ⟨v.length, by simp [alpnLoop], by simp [Strings.nil]⟩

theorem svcparam_ok {mem : List UInt8} {val : Nat} {v : List UInt8} (hv : Win mem val v) (key : Nat) :
    ∃ b, svcparamKeyValidate mem key v.length val = ok b ∧ (b = true ↔ SvcValueOK key v) := by
  unfold svcparamKeyValidate
  by_cases h0 : key = 0
  · subst h0; simp [SvcValueOK]
  by_cases h1 : key = 1
  · subst h1
    by_cases hv0 : v.length = 0
    · simp [SvcValueOK, List.length_eq_zero_iff.mp hv0]
    · obtain ⟨j, h1, h2⟩ := alpnLoop_spec hv (v.length + 1) 0 (by omega) (by omega)
      simp only [Nat.one_ne_zero, if_false, if_true, hv0, h1, ok_bind]
      refine ⟨_, rfl, ?_⟩
      have : v ≠ [] := by intro h; exact hv0 (by simp [h])
      simpa [SvcValueOK, this] using h2
  by_cases h2 : key = 2
  · subst h2; simp [SvcValueOK]
  by_cases h3 : key = 3
  · subst h3; simp [SvcValueOK]
  by_cases h4 : key = 4
  · subst h4; simp [SvcValueOK]
  by_cases h5 : key = 5
  · subst h5; simp [SvcValueOK]
  by_cases h6 : key = 6
  · subst h6; simp [SvcValueOK]
  by_cases h7 : key = 65535
  · subst h7; simp [SvcValueOK]
  · simp only [h0, h1, h2, h3, h4, h5, h6, h7, if_false]
    refine ⟨true, rfl, ?_⟩
    unfold SvcValueOK
    simp

theorem params_iff {k0 k1 l0 l1 : UInt8} {w : List UInt8} :
    Params (k0 :: k1 :: l0 :: l1 :: w) ↔ be16 l0 l1 ≤ w.length ∧
      SvcValueOK (be16 k0 k1) (w.take (be16 l0 l1)) ∧ Params (w.drop (be16 l0 l1)) := by
  constructor
  · intro h; cases h with
    | cons h1 h2 h3 => exact ⟨by simp [h1], by simpa [← h1] using h2, by simpa [← h1] using h3⟩
  · rintro ⟨h1, h2, h3⟩
    have := Params.cons (l0 := l0) (l1 := l1) (v := w.take (be16 l0 l1)) (by simp [h1]) h2 h3
    simpa using this

theorem params_len {w : List UInt8} (h : Params w) (h0 : w ≠ []) : 4 ≤ w.length := by
  cases h with
  | nil => exact absurd rfl h0
  | cons => simp

theorem longParam_iff {k0 k1 l0 l1 : UInt8} {w : List UInt8} :
    LongParam (k0 :: k1 :: l0 :: l1 :: w) ↔ (65532 ≤ be16 l0 l1 ∧ SvcLenOK (be16 k0 k1) (be16 l0 l1)) ∨
      (be16 l0 l1 ≤ w.length ∧ SvcValueOK (be16 k0 k1) (w.take (be16 l0 l1)) ∧ LongParam (w.drop (be16 l0 l1))) := by
  constructor
  · intro h
    generalize he : k0 :: k1 :: l0 :: l1 :: w = x at h
    cases h with
    | here h1 h2 => cases he; exact .inl ⟨h1, h2⟩
    | later h1 h2 h3 =>
      cases he
      exact .inr ⟨by simp [h1], by simpa [← h1] using h2, by simpa [← h1] using h3⟩
  · rintro (⟨h1, h2⟩ | ⟨h1, h2, h3⟩)
    · exact .here h1 h2
    · have := LongParam.later (l0 := l0) (l1 := l1) (v := w.take (be16 l0 l1)) (by simp [h1]) h2 h3
      simpa using this

theorem longParam_len {w : List UInt8} (h : LongParam w) : 4 ≤ w.length := by
  cases h <;> simp

theorem params_noLong {w : List UInt8} (h : LongParam w) : w.length < 65536 → ¬ Params w := by
  induction h with
  | here h1 h2 =>
    intro hl hp
    have := (params_iff.mp hp).1
    simp only [List.length_cons] at hl
    omega
  | @later k0 k1 l0 l1 v w h1 h2 h3 ih =>
    intro hl hp
    have := (params_iff.mp hp).2.2
    rw [← h1, List.drop_left] at this
    exact ih (by simp only [List.length_cons, List.length_append] at hl; omega) this

theorem validate_false {mem : List UInt8} {key l val : Nat} (h : ¬ SvcLenOK key l) : svcparamKeyValidate mem key l val = ok false := by
  unfold svcparamKeyValidate
  by_cases h0 : key = 0
  · subst h0; simpa [SvcLenOK] using h
  by_cases h1 : key = 1
  · subst h1; simp [SvcLenOK] at h
  by_cases h2 : key = 2
  · subst h2; simpa [SvcLenOK] using h
  by_cases h3 : key = 3
  · subst h3; simpa [SvcLenOK] using h
  by_cases h4 : key = 4
  · subst h4; simpa [SvcLenOK] using h
  by_cases h5 : key = 5
  · subst h5; simp [SvcLenOK] at h
  by_cases h6 : key = 6
  · subst h6; simpa [SvcLenOK] using h
  by_cases h7 : key = 65535
  · subst h7; simp
  · exfalso
    apply h
    unfold SvcLenOK
    split <;> first | trivial | contradiction

theorem pSvcparams_spec {mem : List UInt8} : ∀ fuel w src out, w.length < fuel → Win mem src w →
    w.length < 65536 → ¬ LongParam w →
    (Params w ∧ pSvcparams mem fuel ⟨src, w.length, out⟩ = ok ⟨src + w.length, 0, out ++ w⟩) ∨
    (¬ Params w ∧ ∃ r, pSvcparams mem fuel ⟨src, w.length, out⟩ = err r) := by
  intro fuel
  induction fuel with
  | zero => intro w src out h; omega
  | succ fuel ih =>
    intro w src out hf hw hlen hno
    match w, hf, hw, hlen, hno with
    | [], _, _, _, _ => left; simp [pSvcparams, Params.nil]
    | [_], _, _, _, _ => right; exact ⟨fun h => absurd (params_len h (by simp)) (by simp), .parseError, by simp [pSvcparams]⟩
    | [_, _], _, _, _, _ => right; exact ⟨fun h => absurd (params_len h (by simp)) (by simp), .parseError, by simp [pSvcparams]⟩
    | [_, _, _], _, _, _, _ => right; exact ⟨fun h => absurd (params_len h (by simp)) (by simp), .parseError, by simp [pSvcparams]⟩
    | k0 :: k1 :: l0 :: l1 :: w, hf, hw, hlen, hno =>
      have r0 := hw.rd
      have r1 := hw.tail.rd
      have r2 := hw.tail.tail.rd
      have r3 := hw.tail.tail.tail.rd
      have hw4 : Win mem (src + 4) w := hw.tail.tail.tail.tail
      simp only [List.length_cons] at hf hlen
      simp only [pSvcparams, List.length_cons, gt_iff_lt, Nat.zero_lt_succ, if_true, r0, r1,
        ok_bind]
      rw [if_neg (by omega)]
      rw [show src + 1 + 1 = src + 2 by omega] at r2 r3
      rw [show src + 2 + 1 = src + 3 by omega] at r3
      simp only [r2, r3, ok_bind]
      rw [longParam_iff] at hno
      by_cases hlong : 65532 ≤ be16 l0 l1
      · right
        refine ⟨fun h => by have := (params_iff.mp h).1; omega, ?_⟩
        split
        · exact ⟨_, rfl⟩
        · rw [validate_false (fun h => hno (.inl ⟨hlong, h⟩))]
          exact ⟨_, rfl⟩
      rw [Nat.mod_eq_of_lt (by omega : 2 + 2 + be16 l0 l1 < 65536)]
      by_cases hl : be16 l0 l1 ≤ w.length
      · rw [if_neg (by omega)]
        have hv : Win mem (src + 4) (w.take (be16 l0 l1)) := by
          have : Win mem (src + 4) (w.take (be16 l0 l1) ++ w.drop (be16 l0 l1)) := by simpa using hw4
          exact this.left
        obtain ⟨b, hb1, hb2⟩ := svcparam_ok hv (be16 k0 k1)
        rw [List.length_take, Nat.min_eq_left hl] at hb1
        simp only [hb1, ok_bind]
        cases b with
        | false =>
          right
          refine ⟨fun h => ?_, .parseError, by simp⟩
          exact absurd (hb2.mpr (params_iff.mp h).2.1) (by simp)
        | true =>
          simp only [Bool.true_eq_false, if_false]
          have e : k0 :: k1 :: l0 :: l1 :: w = (k0 :: k1 :: l0 :: l1 :: w.take (be16 l0 l1)) ++
            w.drop (be16 l0 l1) := by simp
          have hw2 := e ▸ hw
          rw [pCopy_win hw2 (by rw [← e]; rfl) (by simp [hl]; omega)]
          simp only [ok_bind]
          rcases ih (w.drop (be16 l0 l1)) _ (out ++ k0 :: k1 :: l0 :: l1 :: w.take (be16 l0 l1))
            (by simp; omega) hw2.right (by simp; omega)
            (fun h => hno (.inr ⟨hl, hb2.mp rfl, h⟩)) with ⟨h1, h2⟩ | ⟨h1, h2⟩
          · left
            refine ⟨params_iff.mpr ⟨hl, hb2.mp rfl, h1⟩, ?_⟩
            rw [h2]; simp; omega
          · right; exact ⟨fun h => h1 (params_iff.mp h).2.2, h2⟩
      · right
        rw [if_pos (by omega)]
        exact ⟨fun h => hl (params_iff.mp h).1, _, rfl⟩

/-! ### one field -/

theorem fixed_spec {mem : List UInt8} {w : List UInt8} {src : Nat} {out : List UInt8} (n : Nat)
    (hw : Win mem src w) :
    (∃ f rest, w = f ++ rest ∧ f.length = n ∧
      pCopy mem ⟨src, w.length, out⟩ n = ok ⟨src + f.length, rest.length, out ++ f⟩) ∨
    ((¬ ∃ f rest, w = f ++ rest ∧ f.length = n) ∧ pCopy mem ⟨src, w.length, out⟩ n = err .parseError) := by
  by_cases h : n ≤ w.length
  · left
    have e : w = w.take n ++ w.drop n := by simp
    refine ⟨w.take n, w.drop n, e, by simp [h], ?_⟩
    exact pCopy_win (e ▸ hw) (by rw [← e]) (by simp [h])
  · right
    refine ⟨?_, pCopy_short (by omega)⟩
    rintro ⟨f, rest, rfl, h2⟩
    simp at h; omega

theorem counted_spec {mem : List UInt8} {a : UInt8} {w : List UInt8} {src : Nat} {out : List UInt8} (n : Nat)
    (hw : Win mem src (a :: w)) :
    (∃ f rest, a :: w = f ++ rest ∧ (∃ s, f = a :: s ∧ s.length = n) ∧
      pCopy mem ⟨src, w.length + 1, out⟩ (n + 1) = ok ⟨src + f.length, rest.length, out ++ f⟩) ∨
    ((¬ ∃ f rest, a :: w = f ++ rest ∧ (∃ s, f = a :: s ∧ s.length = n)) ∧
      pCopy mem ⟨src, w.length + 1, out⟩ (n + 1) = err .parseError) := by
  rcases fixed_spec (out := out) (n + 1) hw with ⟨f, rest, h1, h2, h3⟩ | ⟨h1, h2⟩
  · left
    refine ⟨f, rest, h1, ?_, h3⟩
    cases f with
    | nil => simp at h2
    | cons b f =>
      simp only [List.cons_append, List.cons.injEq] at h1
      exact ⟨f, by rw [h1.1], by simpa using h2⟩
  · right
    refine ⟨?_, h2⟩
    rintro ⟨f, rest, e, s, rfl, hs⟩
    exact h1 ⟨a :: s, rest, e, by simp [hs]⟩

/-- Outcome of parsing one field that is not a name. -/
def FieldSpec (t : Rdf) (w : List UInt8) (src : Nat) (out : List UInt8) (r : Outcome PState) : Prop :=
  (∃ f rest, w = f ++ rest ∧ FieldOK t f ∧ (Terminal t → rest = []) ∧
    r = ok ⟨src + f.length, rest.length, out ++ f⟩) ∨
  ((¬ ∃ f rest, w = f ++ rest ∧ FieldOK t f ∧ (Terminal t → rest = [])) ∧
    ((∃ e, r = err e) ∨ (Terminal t ∧ ∃ s o, r = ok ⟨s, 1, o⟩)))

theorem fieldSpec_fixed {mem w src out} {t : Rdf} (n : Nat) (hw : Win mem src w) (hT : ¬ Terminal t)
    (hF : ∀ f, FieldOK t f ↔ f.length = n) :
    FieldSpec t w src out (pCopy mem ⟨src, w.length, out⟩ n) := by
  rcases fixed_spec (out := out) n hw with ⟨f, rest, h1, h2, h3⟩ | ⟨h1, h2⟩
  · left; exact ⟨f, rest, h1, (hF f).mpr h2, fun h => absurd h hT, h3⟩
  · right
    refine ⟨?_, Or.inl ⟨_, h2⟩⟩
    rintro ⟨f, rest, e, hf, _⟩
    exact h1 ⟨f, rest, e, (hF f).mp hf⟩

theorem fieldSpec_counted {mem a w src out} {t : Rdf} (n : Nat) (hw : Win mem src (a :: w))
    (hT : ¬ Terminal t) (hF : ∀ b s, FieldOK t (b :: s) → b = a → s.length = n)
    (hF2 : ∀ s : List UInt8, s.length = n → FieldOK t (a :: s)) (hF3 : ¬ FieldOK t []) :
    FieldSpec t (a :: w) src out (pCopy mem ⟨src, w.length + 1, out⟩ (n + 1)) := by
  rcases counted_spec (out := out) n hw with ⟨f, rest, h1, ⟨s, rfl, hs⟩, h3⟩ | ⟨h1, h2⟩
  · left; exact ⟨_, rest, h1, hF2 s hs, fun h => absurd h hT, h3⟩
  · right
    refine ⟨?_, Or.inl ⟨_, h2⟩⟩
    rintro ⟨f, rest, e, hf, _⟩
    cases f with
    | nil => exact hF3 hf
    | cons b s =>
      simp only [List.cons_append, List.cons.injEq] at e
      refine h1 ⟨b :: s, rest, by simp [e.1, e.2], s, by rw [e.1], hF b s hf e.1.symm⟩

theorem fieldSpec_bytes {mem w src out} {t : Rdf} (hw : Win mem src w)
    (hF : ∀ f, FieldOK t f) :
    FieldSpec t w src out (pCopy mem ⟨src, w.length, out⟩ w.length) := by
  left
  refine ⟨w, [], by simp, hF w, fun _ => rfl, ?_⟩
  exact pCopy_win (by simpa using hw) (by simp) rfl

theorem fieldSpec_string {mem a w src out} {t : Rdf} (hw : Win mem src (a :: w)) (hT : ¬ Terminal t)
    (hF : ∀ f, FieldOK t f ↔ ∃ l s, f = l :: s ∧ s.length = l.toNat) :
    FieldSpec t (a :: w) src out (pCopy mem ⟨src, w.length + 1, out⟩ (a.toNat + 1)) := by
  apply fieldSpec_counted a.toNat hw hT
  · intro b s h1 h2
    obtain ⟨l, s', h3, h4⟩ := (hF _).mp h1
    simp only [List.cons.injEq] at h3
    rw [h3.2, h4, ← h3.1, h2]
  · intro s hs; exact (hF _).mpr ⟨a, s, rfl, hs⟩
  · intro h; obtain ⟨l, s, h1, _⟩ := (hF _).mp h; simp at h1

theorem pField_spec {mem : List UInt8} {p eop : Nat} {t : Rdf} {w : List UInt8} {src : Nat}
    {out : List UInt8} (hN : ¬ IsName t) (hw : Win mem src w) (h0 : w ≠ []) (hlen : w.length < 65536)
    (hno : t = .svcparams → ¬ LongParam w) :
    FieldSpec t w src out (pField mem p eop t ⟨src, w.length, out⟩) := by
  cases w with
  | nil => exact absurd rfl h0
  | cons a w =>
  have hrd := hw.rd
  cases t <;> simp only [pField, hrd, ok_bind, List.length_cons]
  case name => exact absurd trivial hN
  case uname => exact absurd trivial hN
  case bytes => exact fieldSpec_bytes hw (fun _ => trivial)
  case bytesB64 => exact fieldSpec_bytes hw (fun _ => trivial)
  case bytesStr => exact fieldSpec_bytes hw (fun _ => trivial)
  case ednsOptRdata => exact fieldSpec_bytes hw (fun _ => trivial)
  case int8 => exact fieldSpec_fixed 1 hw id (fun _ => Iff.rfl)
  case int16 => exact fieldSpec_fixed 2 hw id (fun _ => Iff.rfl)
  case rrtype => exact fieldSpec_fixed 2 hw id (fun _ => Iff.rfl)
  case int32 => exact fieldSpec_fixed 4 hw id (fun _ => Iff.rfl)
  case ipv4 => exact fieldSpec_fixed 4 hw id (fun _ => Iff.rfl)
  case ipv6 => exact fieldSpec_fixed 16 hw id (fun _ => Iff.rfl)
  case eui48 => exact fieldSpec_fixed 6 hw id (fun _ => Iff.rfl)
  case eui64 => exact fieldSpec_fixed 8 hw id (fun _ => Iff.rfl)
  case string => exact fieldSpec_string hw id (fun _ => Iff.rfl)
  case salt => exact fieldSpec_string hw id (fun _ => Iff.rfl)
  case hash => exact fieldSpec_string hw id (fun _ => Iff.rfl)
  case repstring =>
    rcases pRepstring_spec (w.length + 1 + 1) (a :: w) src out (by simp) hw with ⟨h1, h2⟩ | ⟨h1, h2⟩
    · left; exact ⟨a :: w, [], by simp, h1, fun _ => rfl, h2⟩
    · right
      refine ⟨?_, Or.inl ⟨_, h2⟩⟩
      rintro ⟨f, rest, e, hf, hr⟩
      rw [hr trivial, List.append_nil] at e
      exact h1 (e ▸ hf)
  case typeBitmap =>
    rcases pBitmap_spec (w.length + 1 + 1) (a :: w) src out (by simp) hw with ⟨h1, h2⟩ | ⟨h1, h2⟩
    · left; exact ⟨a :: w, [], by simp, h1, fun _ => rfl, h2⟩
    · right
      refine ⟨?_, ?_⟩
      · rintro ⟨f, rest, e, hf, hr⟩
        rw [hr trivial, List.append_nil] at e
        exact h1 (e ▸ hf)
      · rcases h2 with h2 | h2
        · exact Or.inl ⟨_, h2⟩
        · exact Or.inr ⟨trivial, h2⟩
  case svcparams =>
    rcases pSvcparams_spec (w.length + 1 + 1) (a :: w) src out (by simp) hw hlen (hno rfl) with
      ⟨h1, h2⟩ | ⟨h1, h2⟩
    · left; exact ⟨a :: w, [], by simp, h1, fun _ => rfl, h2⟩
    · right
      refine ⟨?_, Or.inl h2⟩
      rintro ⟨f, rest, e, hf, hr⟩
      rw [hr trivial, List.append_nil] at e
      exact h1 (e ▸ hf)
  case ipv6prefix =>
    by_cases hp : a.toNat > 128
    · rw [if_pos hp]
      right
      refine ⟨?_, Or.inl ⟨_, rfl⟩⟩
      rintro ⟨f, rest, e, ⟨pl, s, rfl, h1, _⟩, _⟩
      simp only [List.cons_append, List.cons.injEq] at e
      rw [← e.1] at h1; omega
    · rw [if_neg hp]
      have hn : (128 - a.toNat) / 8 + (if a.toNat % 8 ≠ 0 then 1 else 0) = (128 - a.toNat + 7) / 8 := by
        split <;> omega
      rw [hn]
      apply fieldSpec_counted _ hw id
      · rintro b s ⟨pl, s', h1, h2, h3⟩ h4
        simp only [List.cons.injEq] at h1
        rw [h1.2, h3, ← h1.1, h4]
      · intro s hs; exact ⟨a, s, rfl, by omega, hs⟩
      · rintro ⟨pl, s, h1, _⟩; simp at h1

theorem fieldOK_unique {t : Rdf} {f f' rest rest' : List UInt8} (h : FieldOK t f) (h' : FieldOK t f')
    (hr : Terminal t → rest = []) (hr' : Terminal t → rest' = []) (e : f ++ rest = f' ++ rest') :
    f = f' ∧ rest = rest' := by
  by_cases hT : Terminal t
  · simp only [hr hT, hr' hT, List.append_nil] at e
    exact ⟨e, by rw [hr hT, hr' hT]⟩
  · apply List.append_inj e
    cases t <;> first | exact absurd trivial hT | exact absurd h id | (exact h.trans h'.symm) | skip
    all_goals
      (obtain ⟨l, s, rfl, h1⟩ := h
       obtain ⟨l', s', rfl, h1'⟩ := h'
       simp only [List.cons_append, List.cons.injEq] at e
       simp [h1, h1', e.1])

theorem pField_complete {mem : List UInt8} {p eop : Nat} {t : Rdf} {f rest : List UInt8} {src : Nat}
    {out : List UInt8} (hf : FieldOK t f) (hw : Win mem src (f ++ rest)) (h0 : f ++ rest ≠ [])
    (hlen : (f ++ rest).length < 65536) (hr : Terminal t → rest = []) {b : Nat} (hb : b = (f ++ rest).length) :
    pField mem p eop t ⟨src, b, out⟩ = ok ⟨src + f.length, rest.length, out ++ f⟩ := by
  subst hb
  have hN : ¬ IsName t := by intro h; cases t <;> first | exact h | exact hf
  have := pField_spec (p := p) (eop := eop) (out := out) hN hw h0 hlen (by
    rintro rfl hL
    refine params_noLong hL hlen ?_
    rw [hr trivial, List.append_nil]; exact hf)
  rcases this with ⟨f', rest', h1, h2, h3, h4⟩ | ⟨h1, _⟩
  · obtain ⟨e1, e2⟩ := fieldOK_unique hf h2 hr h3 h1
    subst e1 e2; exact h4
  · exact absurd ⟨f, rest, rfl, hf, hr⟩ h1

end Wdns
