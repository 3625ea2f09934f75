import Verif.Model.Format
import Verif.Spec.Format
import Verif.Lemmas.Unpack

/-!
# Lemmas about base32hex
-/

namespace Wdns
open Outcome Spec

theorem b32_bits : ∀ f < 256, f >>> 3 = f / 8 ∧ (f &&& 0x07) <<< 2 = f % 8 * 4 ∧ f >>> 6 = f / 64 ∧ (f >>> 1) &&& 0x1f = f / 2 % 32 ∧
    (f &&& 0x01) <<< 4 = f % 2 * 16 ∧ f >>> 4 = f / 16 ∧ (f &&& 0x0f) <<< 1 = f % 16 * 2 ∧ f >>> 7 = f / 128 ∧
    (f >>> 2) &&& 0x1f = f / 4 % 32 ∧ (f &&& 0x03) <<< 3 = f % 4 * 8 ∧ f >>> 5 = f / 32 ∧ f &&& 0x1f = f % 32 := by decide +kernel
theorem b32_or1 : ∀ a < 8, ∀ b < 4, (a * 4) ||| b = a * 4 + b := by decide +kernel
theorem b32_or2 : ∀ a < 2, ∀ b < 16, (a * 16) ||| b = a * 16 + b := by decide +kernel
theorem b32_or3 : ∀ a < 16, ∀ b < 2, (a * 2) ||| b = a * 2 + b := by decide +kernel
theorem b32_or4 : ∀ a < 4, ∀ b < 8, (a * 8) ||| b = a * 8 + b := by decide +kernel
theorem b32_value : ∀ v < 32, b32Alphabet.getD v 0 = b32Char v := by decide +kernel

/-- The eight digits of five octets. -/
def dig8 (a b c d e : Nat) : List Nat :=
  [a / 8, a % 8 * 4 + b / 64, b / 2 % 32, b % 2 * 16 + c / 16, c % 16 * 2 + d / 128, d / 4 % 32, d % 4 * 8 + e / 32, e % 32]

theorem b32Group_eq (x : Nat → Nat) (h : ∀ j, x j < 256) : b32Group x = dig8 (x 0) (x 1) (x 2) (x 3) (x 4) := by
  obtain ⟨h01, h02, -⟩ := b32_bits _ (h 0)
  obtain ⟨-, -, h11, h12, h13, -⟩ := b32_bits _ (h 1)
  obtain ⟨-, -, -, -, -, h21, h22, -⟩ := b32_bits _ (h 2)
  obtain ⟨-, -, -, -, -, -, -, h31, h32, h33, -⟩ := b32_bits _ (h 3)
  obtain ⟨-, -, -, -, -, -, -, -, -, -, h41, h42⟩ := b32_bits _ (h 4)
  have := h 0; have := h 1; have := h 2; have := h 3; have := h 4
  simp only [b32Group, dig8, h01, h02, h11, h12, h13, h21, h22, h31, h32, h33, h41, h42]
  rw [b32_or1 _ (by omega) _ (by omega), b32_or2 _ (by omega) _ (by omega), b32_or3 _ (by omega) _ (by omega),
    b32_or4 _ (by omega) _ (by omega)]

theorem dig8_lt {a b c d e : Nat} (ha : a < 256) (hb : b < 256) (hc : c < 256) (hd : d < 256) (he : e < 256) : ∀ v ∈ dig8 a b c d e, v < 32 := by
  simp only [dig8, List.mem_cons, List.not_mem_nil, or_false]
  rintro v (rfl | rfl | rfl | rfl | rfl | rfl | rfl | rfl) <;> omega

theorem group32_eq (p : List UInt8) : group32 p =
    (dig8 (p.getD 0 0).toNat (p.getD 1 0).toNat (p.getD 2 0).toNat (p.getD 3 0).toNat (p.getD 4 0).toNat).map b32Char := by
  have h0 := u8_lt (p.getD 0 0); have h1 := u8_lt (p.getD 1 0); have h2 := u8_lt (p.getD 2 0)
  have h3 := u8_lt (p.getD 3 0); have h4 := u8_lt (p.getD 4 0)
  unfold group32 group40
  generalize (p.getD 0 0).toNat = a at *
  generalize (p.getD 1 0).toNat = b at *
  generalize (p.getD 2 0).toNat = c at *
  generalize (p.getD 3 0).toNat = d at *
  generalize (p.getD 4 0).toNat = e at *
  simp only [dig8, List.range, List.range.loop, List.map_cons, List.map_nil, Nat.reduceSub, Nat.reducePow, List.cons.injEq]
  refine ⟨?_, ?_, ?_, ?_, ?_, ?_, ?_, ?_, trivial⟩ <;> (congr 1; omega)

theorem group_eq (p : List UInt8) :
    ((b32Group fun j => (p.getD j 0).toNat).map fun v => b32Alphabet.getD v 0) = group32 p := by
  rw [b32Group_eq _ (fun j => u8_lt _), group32_eq]
  apply List.map_congr_left
  intro v hv
  exact b32_value v (dig8_lt (u8_lt _) (u8_lt _) (u8_lt _) (u8_lt _) (u8_lt _) v hv)

theorem group32_length (p : List UInt8) : (group32 p).length = 8 := by simp [group32]

theorem base32_length (src : List UInt8) : (base32 src).length = (8 * src.length + 4) / 5 := by
  induction src using base32.induct with
  | case6 a b c d e rest ih => simp only [base32, List.length_append, group32_length, ih, List.length_cons]; omega
  | _ => simp [base32, group32_length]

theorem b32Digits_ge {n : Nat} (h : 5 ≤ n) : b32Digits n = 8 := by
  unfold b32Digits; split <;> omega

theorem b32EncodeLoop_eq (size : Nat) (src : List UInt8) : ∀ (fuel : Nat) (out : List UInt8), src ≠ [] → src.length ≤ fuel →
    out.length ≤ size → b32EncodeLoop size fuel src out = ok (out ++ (base32 src).take (size - out.length)) := by
  have short : ∀ (fuel : Nat) (out p : List UInt8) (n : Nat), p.length ≤ 5 → b32Digits p.length = n →
      out.length ≤ size → b32EncodeLoop size (fuel + 1) p out = ok (out ++ ((group32 p).take n).take (size - out.length)) := by
    intro fuel out p n hp hn ho
    simp only [b32EncodeLoop, group_eq, hn]
    have hd : (p.drop 5).length = 0 := by simp; omega
    simp only [hd, gt_iff_lt, Nat.lt_irrefl, if_false]
    split <;> rfl
  induction src using base32.induct with
  | case1 => intro _ _ h; exact absurd rfl h
  | case2 a => intro fuel out _ hf ho; cases fuel with
    | zero => simp at hf
    | succ f => exact short f out _ _ (by simp) rfl ho
  | case3 a b => intro fuel out _ hf ho; cases fuel with
    | zero => simp at hf
    | succ f => exact short f out _ _ (by simp) rfl ho
  | case4 a b c => intro fuel out _ hf ho; cases fuel with
    | zero => simp at hf
    | succ f => exact short f out _ _ (by simp) rfl ho
  | case5 a b c d => intro fuel out _ hf ho; cases fuel with
    | zero => simp at hf
    | succ f => exact short f out _ _ (by simp) rfl ho
  | case6 a b c d e rest ih =>
    intro fuel out _ hf ho
    cases fuel with
    | zero => simp at hf
    | succ f =>
      have hg : group32 (a :: b :: c :: d :: e :: rest) = group32 [a, b, c, d, e] := rfl
      have hdg : b32Digits (a :: b :: c :: d :: e :: rest).length = 8 := b32Digits_ge (by simp)
      have ht : (group32 [a, b, c, d, e]).take 8 = group32 [a, b, c, d, e] := List.take_of_length_le (by simp [group32_length])
      simp only [b32EncodeLoop, group_eq, hdg, hg, ht, base32]
      simp only [List.drop_succ_cons, List.drop_zero]
      simp only [List.length_append, List.length_take, group32_length]
      simp only [List.length_cons] at hf
      by_cases hs : out.length + min (size - out.length) 8 = size
      · rw [if_pos hs]
        congr 2
        rw [List.take_append_of_le_length (by simp [group32_length]; omega)]
      · rw [if_neg hs]
        have hmin : size - out.length > 8 := by omega
        have htk : (group32 [a, b, c, d, e]).take (size - out.length) = group32 [a, b, c, d, e] :=
          List.take_of_length_le (by simp [group32_length]; omega)
        rw [htk, List.take_append, htk, group32_length]
        cases rest with
        | nil => simp [base32]
        | cons r rs =>
          rw [if_pos (by simp), ih f _ (by simp) (by simp at hf ⊢; omega) (by simp [group32_length]; omega)]
          simp only [List.append_assoc, List.length_append, group32_length]
          congr 4

/-- `base32_encode` writes the first `size` characters of the RFC 4648 text. -/
theorem base32Encode_eq (size : Nat) (src : List UInt8) (h : src ≠ []) : base32Encode size src = ok ((base32 src).take size) := by
  unfold base32Encode
  rw [b32EncodeLoop_eq size src _ [] h (by omega) (by simp)]
  simp

/-! ## decoding -/

theorem b32Map_char : ∀ v < 32, b32Map (b32Char v) = v ∧ b32Map (UInt8.ofNat (lower (b32Char v)).toNat) = v := by decide +kernel

theorem b32_dbits : ∀ v < 32, (v <<< 3) &&& 0xf8 = v * 8 ∧ (v >>> 2) &&& 0x07 = v / 4 ∧ (v &&& 0x03) <<< 6 = v % 4 * 64 ∧
    (v &&& 0x1f) <<< 1 = v * 2 ∧ (v >>> 4) &&& 1 = v / 16 ∧ (v &&& 0x0f) <<< 4 = v % 16 * 16 ∧ (v >>> 1) &&& 0x0f = v / 2 ∧
    (v &&& 1) <<< 7 = v % 2 * 128 ∧ (v &&& 0x1f) <<< 2 = v * 4 ∧ (v >>> 3) &&& 0x03 = v / 8 ∧ (v &&& 0x07) <<< 5 = v % 8 * 32 ∧
    v &&& 0x1f = v := by decide +kernel
theorem b32_dor1 : ∀ a < 32, ∀ b < 8, (a * 8) ||| b = a * 8 + b := by decide +kernel
theorem b32_dor2 : ∀ a < 4, ∀ b < 32, ∀ c < 2, (a * 64) ||| (b * 2) ||| c = a * 64 + b * 2 + c := by decide +kernel
theorem b32_dor3 : ∀ a < 16, ∀ b < 16, (a * 16) ||| b = a * 16 + b := by decide +kernel
theorem b32_dor4 : ∀ a < 2, ∀ b < 32, ∀ c < 4, (a * 128) ||| (b * 4) ||| c = a * 128 + b * 4 + c := by decide +kernel
theorem b32_dor5 : ∀ a < 8, ∀ b < 32, (a * 32) ||| b = a * 32 + b := by decide +kernel

/-- What the bytes of a group are in terms of digits. -/
def byt5 (s : Nat → Nat) : List UInt8 :=
  [UInt8.ofNat (s 0 * 8 + s 1 / 4), UInt8.ofNat (s 1 % 4 * 64 + s 2 * 2 + s 3 / 16), UInt8.ofNat (s 3 % 16 * 16 + s 4 / 2),
   UInt8.ofNat (s 4 % 2 * 128 + s 5 * 4 + s 6 / 8), UInt8.ofNat (s 6 % 8 * 32 + s 7)]

theorem b32Bytes_eq (si n : Nat) (s : Nat → Nat) (h : ∀ j, s j < 32)
    (hn : (if si < 2 then 0 else if si < 4 then 1 else if si < 5 then 2 else if si < 7 then 3 else if si < 8 then 4 else 5) = n) :
    b32Bytes si s = (byt5 s).take n := by
  obtain ⟨h01, -⟩ := b32_dbits _ (h 0)
  obtain ⟨-, h11, h12, -⟩ := b32_dbits _ (h 1)
  obtain ⟨-, -, -, h21, -⟩ := b32_dbits _ (h 2)
  obtain ⟨-, -, -, -, h31, h32, -⟩ := b32_dbits _ (h 3)
  obtain ⟨-, -, -, -, -, -, h41, h42, -⟩ := b32_dbits _ (h 4)
  obtain ⟨-, -, -, -, -, -, -, -, h51, -⟩ := b32_dbits _ (h 5)
  obtain ⟨-, -, -, -, -, -, -, -, -, h61, h62, -⟩ := b32_dbits _ (h 6)
  obtain ⟨-, -, -, -, -, -, -, -, -, -, -, h71⟩ := b32_dbits _ (h 7)
  have := h 0; have := h 1; have := h 2; have := h 3; have := h 4; have := h 5; have := h 6; have := h 7
  simp only [b32Bytes, hn, h01, h11, h12, h21, h31, h32, h41, h42, h51, h61, h62, h71]
  rw [b32_dor1 _ (by omega) _ (by omega), b32_dor2 _ (by omega) _ (by omega) _ (by omega), b32_dor3 _ (by omega) _ (by omega),
    b32_dor4 _ (by omega) _ (by omega) _ (by omega), b32_dor5 _ (by omega) _ (by omega)]
  simp only [byt5, List.map_take, List.map_cons, List.map_nil]

theorem ne61_of_map {c : UInt8} {v : Nat} (h : b32Map c = v) (hv : v < 32) : c ≠ 61 := by
  rintro rfl
  have : b32Map 61 = 255 := by decide +kernel
  omega

/-- Digits that do not yet complete a group are collected. -/
theorem b32_collect (size : Nat) (rest : List UInt8) (hr : rest ≠ []) (out : List UInt8) (ho : out.length < size) :
    ∀ (cs : List UInt8) (vs s : List Nat), cs.map b32Map = vs → (∀ v ∈ vs, v < 32) → s.length + cs.length < 8 →
    b32DecodeLoop size (cs ++ rest) s false out = b32DecodeLoop size rest (s ++ vs) false out := by
  intro cs
  induction cs with
  | nil => intro vs s h _ _; simp at h; subst h; simp
  | cons c cs ih =>
    intro vs s h hv hl
    cases vs with
    | nil => simp at h
    | cons v vs =>
      simp only [List.map_cons, List.cons.injEq] at h
      have hvv := hv v (by simp)
      have h61 := ne61_of_map h.1 hvv
      have h255 : b32Map c ≠ 255 := by omega
      have hne : cs ++ rest ≠ [] := by simp [hr]
      simp only [List.length_cons] at hl
      have hl8 : ¬ (s ++ [b32Map c]).length = 8 := by simp; omega
      simp only [List.cons_append, b32DecodeLoop, h61, h255, if_false, hl8, hne, false_or, Bool.false_eq_true]
      rw [if_neg (by omega), ih vs _ h.2 (fun x hx => hv x (by simp [hx])) (by simp; omega), h.1]
      simp

/-- The last digit of a group flushes it. -/
theorem b32_flush (size : Nat) (c : UInt8) (v : Nat) (hc : b32Map c = v) (hv : v < 32) (cs : List UInt8) (s : List Nat)
    (out : List UInt8) (h : s.length + 1 = 8 ∨ cs = []) :
    b32DecodeLoop size (c :: cs) s false out =
      (let o := out ++ (b32Bytes (s.length + 1) fun j => (s ++ [v]).getD j 0).take (size - out.length)
       if o.length = size then some o else b32DecodeLoop size cs [] false o) := by
  have h61 := ne61_of_map hc hv
  have h255 : v ≠ 255 := by omega
  have hl : (s.length + 1 = 8 ∨ (false : Bool) = true ∨ cs = []) := by
    rcases h with h | h
    · left; exact h
    · right; right; exact h
  simp only [b32DecodeLoop, h61, h255, if_false, hl, if_true, hc, List.length_append, List.length_singleton]

/-- The digit values of the text. -/
def b32Vals : List UInt8 → List Nat
  | [] => []
  | [a] => (dig8 a.toNat 0 0 0 0).take 2
  | [a, b] => (dig8 a.toNat b.toNat 0 0 0).take 4
  | [a, b, c] => (dig8 a.toNat b.toNat c.toNat 0 0).take 5
  | [a, b, c, d] => (dig8 a.toNat b.toNat c.toNat d.toNat 0).take 7
  | a :: b :: c :: d :: e :: rest => dig8 a.toNat b.toNat c.toNat d.toNat e.toNat ++ b32Vals rest

theorem base32_vals (src : List UInt8) : base32 src = (b32Vals src).map b32Char ∧ ∀ v ∈ b32Vals src, v < 32 := by
  induction src using base32.induct with
  | case6 a b c d e rest ih =>
    refine ⟨?_, ?_⟩
    · simp only [base32, b32Vals, List.map_append, ih.1, group32_eq]; rfl
    · intro v hv
      simp only [b32Vals, List.mem_append] at hv
      rcases hv with hv | hv
      · exact dig8_lt (u8_lt _) (u8_lt _) (u8_lt _) (u8_lt _) (u8_lt _) v hv
      · exact ih.2 v hv
  | case1 => exact ⟨rfl, by simp [b32Vals]⟩
  | _ =>
    refine ⟨?_, ?_⟩
    · simp only [base32, b32Vals, List.map_take, group32_eq]; rfl
    · intro v hv
      simp only [b32Vals] at hv
      exact dig8_lt (by first | exact u8_lt _ | omega) (by first | exact u8_lt _ | omega) (by first | exact u8_lt _ | omega)
        (by first | exact u8_lt _ | omega) (by first | exact u8_lt _ | omega) v (List.mem_of_mem_take hv)

theorem byt5_dig8 (a b c d e : UInt8) (s : Nat → Nat) (h : ∀ j < 8, s j = (dig8 a.toNat b.toNat c.toNat d.toNat e.toNat).getD j 0) :
    byt5 s = [a, b, c, d, e] := by
  have ha := u8_lt a; have hb := u8_lt b; have hc := u8_lt c; have hd := u8_lt d; have he := u8_lt e
  simp only [byt5, h 0 (by omega), h 1 (by omega), h 2 (by omega), h 3 (by omega), h 4 (by omega), h 5 (by omega), h 6 (by omega),
    h 7 (by omega)]
  simp only [dig8, List.getD_cons_zero, List.getD_cons_succ]
  generalize ea : a.toNat = x0 at *; generalize eb : b.toNat = x1 at *; generalize ec : c.toNat = x2 at *
  generalize ed : d.toNat = x3 at *; generalize ee : e.toNat = x4 at *
  have e0 : x0 / 8 * 8 + (x0 % 8 * 4 + x1 / 64) / 4 = x0 := by omega
  have e1 : (x0 % 8 * 4 + x1 / 64) % 4 * 64 + x1 / 2 % 32 * 2 + (x1 % 2 * 16 + x2 / 16) / 16 = x1 := by omega
  have e2 : (x1 % 2 * 16 + x2 / 16) % 16 * 16 + (x2 % 16 * 2 + x3 / 128) / 2 = x2 := by omega
  have e3 : (x2 % 16 * 2 + x3 / 128) % 2 * 128 + x3 / 4 % 32 * 4 + (x3 % 4 * 8 + x4 / 32) / 8 = x3 := by omega
  have e4 : (x3 % 4 * 8 + x4 / 32) % 8 * 32 + x4 % 32 = x4 := by omega
  rw [e0, e1, e2, e3, e4, ← ea, ← eb, ← ec, ← ed, ← ee]
  simp only [UInt8.ofNat_toNat]

theorem split_map {cs : List UInt8} {vs : List Nat} {v : Nat} {ws : List Nat} (h : cs.map b32Map = vs ++ v :: ws) :
    ∃ a c b, cs = a ++ c :: b ∧ a.map b32Map = vs ∧ b32Map c = v ∧ b.map b32Map = ws := by
  obtain ⟨a, b, rfl, ha, hb⟩ := List.map_eq_append_iff.mp h
  obtain ⟨c, b, rfl, hc, hb⟩ := List.map_eq_cons_iff.mp hb
  exact ⟨a, c, b, rfl, ha, hc, hb⟩

/-- One group: the digits `vs ++ [v]`. -/
theorem b32_group (size : Nat) (cs : List UInt8) (vs : List Nat) (v : Nat) (ws : List Nat) (h : cs.map b32Map = vs ++ v :: ws)
    (hlt : ∀ x ∈ vs ++ [v], x < 32) (hl : vs.length + 1 = 8 ∨ (ws = [] ∧ vs.length < 8)) (out : List UInt8) (ho : out.length < size) :
    ∃ rest, rest.map b32Map = ws ∧ b32DecodeLoop size cs [] false out =
      (let o := out ++ (b32Bytes (vs.length + 1) fun j => (vs ++ [v]).getD j 0).take (size - out.length)
       if o.length = size then some o else b32DecodeLoop size rest [] false o) := by
  obtain ⟨a, c, b, rfl, ha, hc, hb⟩ := split_map h
  refine ⟨b, hb, ?_⟩
  have hal : a.length = vs.length := by rw [← ha]; simp
  rw [b32_collect size (c :: b) (by simp) out ho a vs [] ha (fun x hx => hlt x (by simp [hx])) (by simp; omega), List.nil_append,
    b32_flush size c v hc (hlt v (by simp)) b vs out (by
      rcases hl with hl | hl
      · left; exact hl
      · right; rw [hl.1] at hb; simpa using hb)]

theorem getD_lt {l : List Nat} (h : ∀ v ∈ l, v < 32) (j : Nat) : l.getD j 0 < 32 := by
  rw [List.getD_eq_getElem?_getD]
  cases e : l[j]? with
  | none => simp
  | some v => exact h v (List.mem_of_getElem? e)

theorem b32_decode_loop (size : Nat) (src : List UInt8) : ∀ (cs out : List UInt8), cs.map b32Map = b32Vals src →
    out.length + src.length ≤ size → out.length < size ∨ src = [] →
    b32DecodeLoop size cs [] false out = some (out ++ src) := by
  have short : ∀ (src cs out : List UInt8) (vs : List Nat) (v n : Nat), b32Vals src = vs ++ [v] → cs.map b32Map = b32Vals src →
      vs.length < 8 →
      (if vs.length + 1 < 2 then 0 else if vs.length + 1 < 4 then 1 else if vs.length + 1 < 5 then 2 else if vs.length + 1 < 7 then 3
        else if vs.length + 1 < 8 then 4 else 5) = n →
      (byt5 fun j => (vs ++ [v]).getD j 0).take n = src → out.length + src.length ≤ size → out.length < size →
      b32DecodeLoop size cs [] false out = some (out ++ src) := by
    intro src cs out vs v n hv hm hl hn hb ho ho'
    have hlt : ∀ x ∈ vs ++ [v], x < 32 := hv ▸ (base32_vals src).2
    obtain ⟨rest, hr, e⟩ := b32_group size cs vs v [] (by rw [hm, hv]) hlt (Or.inr ⟨rfl, hl⟩) out ho'
    have : rest = [] := by simpa using hr
    subst this
    rw [e, b32Bytes_eq _ n _ (getD_lt hlt) hn, hb, List.take_of_length_le (by omega)]
    simp only [b32DecodeLoop]
    split <;> rfl
  induction src using base32.induct with
  | case1 => intro cs out h _ _; simp [b32Vals] at h; subst h; simp [b32DecodeLoop]
  | case2 a =>
    intro cs out h h1 h2
    refine short _ _ _ [a.toNat / 8] (a.toNat % 8 * 4 + 0 / 64) 1 rfl h (by simp) rfl ?_ h1 (by simpa using h2)
    have ha := u8_lt a
    simp only [byt5, List.take_succ_cons, List.take_zero]
    simp only [List.cons_append, List.nil_append, List.getD_cons_zero, List.getD_cons_succ]
    rw [show a.toNat / 8 * 8 + (a.toNat % 8 * 4 + 0 / 64) / 4 = a.toNat by omega, UInt8.ofNat_toNat]
  | case3 a b =>
    intro cs out h h1 h2
    refine short _ _ _ [a.toNat / 8, a.toNat % 8 * 4 + b.toNat / 64, b.toNat / 2 % 32] (b.toNat % 2 * 16 + 0 / 16) 2 rfl h (by simp) rfl ?_
      h1 (by simpa using h2)
    have ha := u8_lt a; have hb := u8_lt b
    simp only [byt5, List.take_succ_cons, List.take_zero]
    simp only [List.cons_append, List.nil_append, List.getD_cons_zero, List.getD_cons_succ]
    rw [show a.toNat / 8 * 8 + (a.toNat % 8 * 4 + b.toNat / 64) / 4 = a.toNat by omega,
      show (a.toNat % 8 * 4 + b.toNat / 64) % 4 * 64 + b.toNat / 2 % 32 * 2 + (b.toNat % 2 * 16 + 0 / 16) / 16 = b.toNat by omega,
      UInt8.ofNat_toNat, UInt8.ofNat_toNat]
  | case4 a b c =>
    intro cs out h h1 h2
    refine short _ _ _ [a.toNat / 8, a.toNat % 8 * 4 + b.toNat / 64, b.toNat / 2 % 32, b.toNat % 2 * 16 + c.toNat / 16]
      (c.toNat % 16 * 2 + 0 / 128) 3 rfl h (by simp) rfl ?_ h1 (by simpa using h2)
    have ha := u8_lt a; have hb := u8_lt b; have hc := u8_lt c
    simp only [byt5, List.take_succ_cons, List.take_zero]
    simp only [List.cons_append, List.nil_append, List.getD_cons_zero, List.getD_cons_succ]
    rw [show a.toNat / 8 * 8 + (a.toNat % 8 * 4 + b.toNat / 64) / 4 = a.toNat by omega,
      show (a.toNat % 8 * 4 + b.toNat / 64) % 4 * 64 + b.toNat / 2 % 32 * 2 + (b.toNat % 2 * 16 + c.toNat / 16) / 16 = b.toNat by omega,
      show (b.toNat % 2 * 16 + c.toNat / 16) % 16 * 16 + (c.toNat % 16 * 2 + 0 / 128) / 2 = c.toNat by omega,
      UInt8.ofNat_toNat, UInt8.ofNat_toNat, UInt8.ofNat_toNat]
  | case5 a b c d =>
    intro cs out h h1 h2
    refine short _ _ _ [a.toNat / 8, a.toNat % 8 * 4 + b.toNat / 64, b.toNat / 2 % 32, b.toNat % 2 * 16 + c.toNat / 16,
      c.toNat % 16 * 2 + d.toNat / 128, d.toNat / 4 % 32] (d.toNat % 4 * 8 + 0 / 32) 4 rfl h (by simp) rfl ?_ h1 (by simpa using h2)
    have ha := u8_lt a; have hb := u8_lt b; have hc := u8_lt c; have hd := u8_lt d
    simp only [byt5, List.take_succ_cons, List.take_zero]
    simp only [List.cons_append, List.nil_append, List.getD_cons_zero, List.getD_cons_succ]
    rw [show a.toNat / 8 * 8 + (a.toNat % 8 * 4 + b.toNat / 64) / 4 = a.toNat by omega,
      show (a.toNat % 8 * 4 + b.toNat / 64) % 4 * 64 + b.toNat / 2 % 32 * 2 + (b.toNat % 2 * 16 + c.toNat / 16) / 16 = b.toNat by omega,
      show (b.toNat % 2 * 16 + c.toNat / 16) % 16 * 16 + (c.toNat % 16 * 2 + d.toNat / 128) / 2 = c.toNat by omega,
      show (c.toNat % 16 * 2 + d.toNat / 128) % 2 * 128 + d.toNat / 4 % 32 * 4 + (d.toNat % 4 * 8 + 0 / 32) / 8 = d.toNat by omega,
      UInt8.ofNat_toNat, UInt8.ofNat_toNat, UInt8.ofNat_toNat, UInt8.ofNat_toNat]
  | case6 a b c d e rest ih =>
    intro cs out h h1 h2
    simp only [List.length_cons] at h1
    have hlt : ∀ x ∈ [a.toNat / 8, a.toNat % 8 * 4 + b.toNat / 64, b.toNat / 2 % 32, b.toNat % 2 * 16 + c.toNat / 16,
      c.toNat % 16 * 2 + d.toNat / 128, d.toNat / 4 % 32, d.toNat % 4 * 8 + e.toNat / 32] ++ [e.toNat % 32], x < 32 := dig8_lt (u8_lt a) (u8_lt b) (u8_lt c) (u8_lt d) (u8_lt e)
    obtain ⟨rs, hr, eq⟩ := b32_group size cs [a.toNat / 8, a.toNat % 8 * 4 + b.toNat / 64, b.toNat / 2 % 32, b.toNat % 2 * 16 + c.toNat / 16,
      c.toNat % 16 * 2 + d.toNat / 128, d.toNat / 4 % 32, d.toNat % 4 * 8 + e.toNat / 32] (e.toNat % 32) (b32Vals rest) h hlt
      (Or.inl rfl) out (by omega)
    rw [eq, b32Bytes_eq ([a.toNat / 8, a.toNat % 8 * 4 + b.toNat / 64, b.toNat / 2 % 32, b.toNat % 2 * 16 + c.toNat / 16,
      c.toNat % 16 * 2 + d.toNat / 128, d.toNat / 4 % 32, d.toNat % 4 * 8 + e.toNat / 32].length + 1) 5 _ (getD_lt hlt) rfl, byt5_dig8 a b c d e (fun j => (([a.toNat / 8, a.toNat % 8 * 4 + b.toNat / 64,
      b.toNat / 2 % 32, b.toNat % 2 * 16 + c.toNat / 16, c.toNat % 16 * 2 + d.toNat / 128, d.toNat / 4 % 32,
      d.toNat % 4 * 8 + e.toNat / 32] ++ [e.toNat % 32]).getD j 0)) (fun j _ => rfl)]
    have htk : ([a, b, c, d, e].take 5).take (size - out.length) = [a, b, c, d, e] := List.take_of_length_le (by simp; omega)
    simp only [htk]
    by_cases hs : (out ++ [a, b, c, d, e]).length = size
    · rw [if_pos hs]
      simp only [List.length_append, List.length_cons, List.length_nil] at hs
      have : rest = [] := List.length_eq_zero_iff.mp (by omega)
      subst this; rfl
    · rw [if_neg hs, ih rs _ hr (by simp; omega) (by left; simp at hs ⊢; omega)]
      simp

/-- Decoding a text whose digits are those of `base32 src` gives `src`. -/
theorem base32Decode_eq (size : Nat) (cs src : List UInt8) (h : cs.map b32Map = (base32 src).map b32Map) (hs : src.length ≤ size) :
    base32Decode size cs = some src := by
  have h' : cs.map b32Map = b32Vals src := by
    rw [h, (base32_vals src).1, List.map_map]
    conv => rhs; rw [← List.map_id (b32Vals src)]
    exact List.map_congr_left fun v hv => (b32Map_char v ((base32_vals src).2 v hv)).1
  have := b32_decode_loop size src cs [] h' (by simpa using hs) (by
    cases src with
    | nil => right; rfl
    | cons => left; simp at hs ⊢; omega)
  simpa [base32Decode] using this

theorem asciiToupper_lower : ∀ c : UInt8, b32Map (lower c) = b32Map c := by
  have h : ∀ n : Fin 256, b32Map (lower (UInt8.ofNat n.val)) = b32Map (UInt8.ofNat n.val) := by decide +kernel
  intro c
  simpa using h ⟨c.toNat, u8_lt c⟩

end Wdns
