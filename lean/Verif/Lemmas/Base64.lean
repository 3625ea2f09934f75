import Verif.Model.Format
import Verif.Spec.Format
import Verif.Lemmas.Unpack

/-!
# Lemmas about base64
-/

namespace Wdns
open Outcome Spec

theorem b64_bits : ∀ f < 256, (f &&& 0xfc) >>> 2 = f / 4 ∧ (f &&& 0x03) <<< 4 = f % 4 * 16 ∧ (f &&& 0xf0) >>> 4 = f / 16 ∧
    (f &&& 0x0f) <<< 2 = f % 16 * 4 ∧ (f &&& 0xc0) >>> 6 = f / 64 ∧ f &&& 0x3f = f % 64 := by decide +kernel
theorem b64_or1 : ∀ a < 4, ∀ b < 16, (a * 16) ||| b = a * 16 + b := by decide +kernel
theorem b64_or2 : ∀ a < 16, ∀ b < 4, (a * 4) ||| b = a * 4 + b := by decide +kernel
theorem b64_value : ∀ v < 64, b64EncodeValue v = b64Char v := by decide +kernel

/-- The characters `base64_encode_blockend` adds. -/
def b64Fin : B64Step → Nat → List UInt8
  | .A, _ => []
  | .B, r => [b64EncodeValue r, 61, 61]
  | .C, r => [b64EncodeValue r, 61]

theorem b64_encode_block (src : List UInt8) : ∀ (cap r : Nat) (out : List UInt8), out.length + (4 * src.length + 2) / 3 ≤ cap →
    ∃ s r' o, b64EncodeBlock cap .A r src out = ok (s, r', out ++ o) ∧ o ++ b64Fin s r' = base64 src := by
  induction src using base64.induct with
  | case1 => intro cap r out _; exact ⟨.A, r, [], by simp [b64EncodeBlock], rfl⟩
  | case2 a =>
    intro cap r out h
    obtain ⟨h1, h2, -⟩ := b64_bits a.toNat (u8_lt a)
    simp only [List.length_singleton] at h
    refine ⟨.B, a.toNat % 4 * 16, [b64EncodeValue (a.toNat / 4)], ?_, ?_⟩
    · simp only [b64EncodeBlock, h1, h2]
      rw [wr_ok (by omega)]; rfl
    · have ha := u8_lt a
      simp only [b64Fin, base64]
      rw [b64_value _ (by omega), b64_value _ (by omega)]; rfl
  | case3 a b =>
    intro cap r out h
    obtain ⟨h1, h2, -⟩ := b64_bits a.toNat (u8_lt a)
    obtain ⟨-, -, h3, h4, -⟩ := b64_bits b.toNat (u8_lt b)
    have ha := u8_lt a
    have hb := u8_lt b
    simp only [List.length_cons, List.length_nil] at h
    refine ⟨.C, b.toNat % 16 * 4, [b64EncodeValue (a.toNat / 4), b64EncodeValue (a.toNat % 4 * 16 + b.toNat / 16)], ?_, ?_⟩
    · simp only [b64EncodeBlock, h1, h2, h3, h4]
      rw [wr_ok (by omega)]; simp only [ok_bind]
      rw [wr_ok (by simp; omega), b64_or1 _ (by omega) _ (by omega)]
      simp
    · simp only [b64Fin, base64]
      rw [b64_value _ (by omega), b64_value _ (by omega), b64_value _ (by omega)]; rfl
  | case4 a b c rest ih =>
    intro cap r out h
    obtain ⟨h1, h2, -⟩ := b64_bits a.toNat (u8_lt a)
    obtain ⟨-, -, h3, h4, -⟩ := b64_bits b.toNat (u8_lt b)
    obtain ⟨-, -, -, -, h5, h6⟩ := b64_bits c.toNat (u8_lt c)
    have ha := u8_lt a
    have hb := u8_lt b
    have hc := u8_lt c
    simp only [List.length_cons] at h
    obtain ⟨s, r', o, e1, e2⟩ := ih cap (c.toNat % 64) (out ++ [b64Char (a.toNat / 4), b64Char (a.toNat % 4 * 16 + b.toNat / 16),
      b64Char (b.toNat % 16 * 4 + c.toNat / 64), b64Char (c.toNat % 64)]) (by simp; omega)
    refine ⟨s, r', [b64Char (a.toNat / 4), b64Char (a.toNat % 4 * 16 + b.toNat / 16),
      b64Char (b.toNat % 16 * 4 + c.toNat / 64), b64Char (c.toNat % 64)] ++ o, ?_, ?_⟩
    · simp only [b64EncodeBlock, h1, h2, h3, h4, h5, h6]
      rw [b64_or1 _ (by omega) _ (by omega), b64_or2 _ (by omega) _ (by omega), b64_value _ (by omega), b64_value _ (by omega),
        b64_value _ (by omega), b64_value _ (by omega)]
      rw [wr_ok (by omega)]; simp only [ok_bind]
      rw [wr_ok (by simp; omega)]; simp only [ok_bind]
      rw [wr_ok (by simp; omega)]; simp only [ok_bind]
      rw [wr_ok (by simp; omega)]; simp only [ok_bind]
      simpa using e1
    · simp only [base64, List.append_assoc, e2]

theorem bytesToBase64_eq (src : List UInt8) : bytesToBase64 src = ok (base64 src) := by
  obtain ⟨s, r, o, e1, e2⟩ := b64_encode_block src (2 * src.length + 1) 0 [] (by simp; omega)
  unfold bytesToBase64
  simp only [e1, ok_bind, List.nil_append]
  have hf : b64EncodeBlockend (2 * src.length + 1) s r = ok (b64Fin s r) := by
    cases s with
    | A => rfl
    | B =>
      have : 1 ≤ src.length := by
        cases src with
        | nil => simp [b64EncodeBlock] at e1
        | cons => simp
      exact wrN_ok (by simp; omega)
    | C =>
      have : 1 ≤ src.length := by
        cases src with
        | nil => simp [b64EncodeBlock] at e1
        | cons => simp
      exact wrN_ok (by simp; omega)
  simp only [hf, ok_bind, e2]

theorem b64_decode_char : ∀ v < 64, b64DecodeValue (b64Char v) = ok (some v) := by decide +kernel
theorem b64_decode_pad : b64DecodeValue 61 = ok none := by decide
theorem b64_dbits : ∀ v < 64, (v &&& 0x3f) <<< 2 = v * 4 ∧ (v &&& 0x30) >>> 4 = v / 16 ∧ (v &&& 0x0f) <<< 4 = v % 16 * 16 ∧
    (v &&& 0x3c) >>> 2 = v / 4 ∧ (v &&& 0x03) <<< 6 = v % 4 * 64 ∧ v &&& 0x3f = v := by decide +kernel
theorem b64_dor1 : ∀ a < 64, ∀ b < 4, (a * 4) ||| b = a * 4 + b := by decide +kernel
theorem b64_dor2 : ∀ a < 16, ∀ b < 16, (a * 16) ||| b = a * 16 + b := by decide +kernel
theorem b64_dor3 : ∀ a < 4, ∀ b < 64, (a * 64) ||| b = a * 64 + b := by decide +kernel

theorem dstep_a {cap cur : Nat} {cs out : List UInt8} {v : Nat} (hv : v < 64) (hc : out.length < cap) :
    b64DecodeLoop cap .a cur (b64Char v :: cs) out = b64DecodeLoop cap .b (v * 4) cs out := by
  simp only [b64DecodeLoop, b64_decode_char v hv, ok_bind, hc, if_true, (b64_dbits v hv).1]
theorem dstep_b {cap x : Nat} {cs out : List UInt8} {v : Nat} (hv : v < 64) (hx : x < 64) (hc : out.length + 1 < cap) :
    b64DecodeLoop cap .b (x * 4) (b64Char v :: cs) out =
      b64DecodeLoop cap .c (v % 16 * 16) cs (out ++ [UInt8.ofNat (x * 4 + v / 16)]) := by
  obtain ⟨-, h2, h3, -⟩ := b64_dbits v hv
  simp only [b64DecodeLoop, b64_decode_char v hv, ok_bind, hc, if_true, h2, h3]
  rw [b64_dor1 x hx _ (by omega)]
theorem dstep_c {cap x : Nat} {cs out : List UInt8} {v : Nat} (hv : v < 64) (hx : x < 16) (hc : out.length + 1 < cap) :
    b64DecodeLoop cap .c (x * 16) (b64Char v :: cs) out =
      b64DecodeLoop cap .d (v % 4 * 64) cs (out ++ [UInt8.ofNat (x * 16 + v / 4)]) := by
  obtain ⟨-, -, -, h2, h3, -⟩ := b64_dbits v hv
  simp only [b64DecodeLoop, b64_decode_char v hv, ok_bind, hc, if_true, h2, h3]
  rw [b64_dor2 x hx _ (by omega)]
theorem dstep_d {cap x : Nat} {cs out : List UInt8} {v : Nat} (hv : v < 64) (hx : x < 4) (hc : out.length < cap) :
    b64DecodeLoop cap .d (x * 64) (b64Char v :: cs) out =
      b64DecodeLoop cap .a 0 cs (out ++ [UInt8.ofNat (x * 64 + v)]) := by
  obtain ⟨-, -, -, -, -, h2⟩ := b64_dbits v hv
  simp only [b64DecodeLoop, b64_decode_char v hv, ok_bind, hc, if_true, h2]
  rw [b64_dor3 x hx _ hv]
theorem dstep_pad {cap cur : Nat} {s : B64DStep} {cs out : List UInt8} :
    b64DecodeLoop cap s cur (61 :: cs) out = b64DecodeLoop cap s cur cs out := by
  cases s <;> simp only [b64DecodeLoop, b64_decode_pad, ok_bind]

theorem base64_decode_base64 (src : List UInt8) : ∀ (cap cur : Nat) (out : List UInt8), out.length + src.length < cap →
    b64DecodeLoop cap .a cur (base64 src) out = ok (out ++ src) := by
  induction src using base64.induct with
  | case1 => intro cap cur out h; simp at h; simp [base64, b64DecodeLoop, h]
  | case2 a =>
    intro cap cur out h
    have ha := u8_lt a
    simp only [List.length_singleton] at h
    simp only [base64]
    rw [dstep_a (by omega) (by omega), dstep_b (by omega) (by omega) (by omega), dstep_pad, dstep_pad]
    have e : a.toNat / 4 * 4 + a.toNat % 4 * 16 / 16 = a.toNat := by omega
    rw [e, UInt8.ofNat_toNat]
    simp [b64DecodeLoop, h]
  | case3 a b =>
    intro cap cur out h
    have ha := u8_lt a
    have hb := u8_lt b
    simp only [List.length_cons, List.length_nil] at h
    simp only [base64]
    have e1 : (a.toNat % 4 * 16 + b.toNat / 16) % 16 = b.toNat / 16 := by omega
    rw [dstep_a (by omega) (by omega), dstep_b (by omega) (by omega) (by omega), e1, dstep_c (by omega) (by omega) (by simp; omega),
      dstep_pad]
    have e2 : a.toNat / 4 * 4 + (a.toNat % 4 * 16 + b.toNat / 16) / 16 = a.toNat := by omega
    have e3 : b.toNat / 16 * 16 + b.toNat % 16 * 4 / 4 = b.toNat := by omega
    have e4 : out.length + 2 < cap := by omega
    rw [e2, e3, UInt8.ofNat_toNat, UInt8.ofNat_toNat]
    simp [b64DecodeLoop, e4]
  | case4 a b c rest ih =>
    intro cap cur out h
    have ha := u8_lt a
    have hb := u8_lt b
    have hc := u8_lt c
    simp only [List.length_cons] at h
    simp only [base64, List.cons_append, List.nil_append]
    have e1 : (a.toNat % 4 * 16 + b.toNat / 16) % 16 = b.toNat / 16 := by omega
    have e2 : (b.toNat % 16 * 4 + c.toNat / 64) % 4 = c.toNat / 64 := by omega
    rw [dstep_a (by omega) (by omega), dstep_b (by omega) (by omega) (by omega), e1, dstep_c (by omega) (by omega) (by simp; omega), e2,
      dstep_d (by omega) (by omega) (by simp; omega), ih _ _ _ (by simp; omega)]
    have e3 : a.toNat / 4 * 4 + (a.toNat % 4 * 16 + b.toNat / 16) / 16 = a.toNat := by omega
    have e4 : b.toNat / 16 * 16 + (b.toNat % 16 * 4 + c.toNat / 64) / 4 = b.toNat := by omega
    have e5 : c.toNat / 64 * 64 + c.toNat % 64 = c.toNat := by omega
    rw [e3, e4, e5, UInt8.ofNat_toNat, UInt8.ofNat_toNat, UInt8.ofNat_toNat]
    simp

theorem base64_length (src : List UInt8) : (base64 src).length = 4 * ((src.length + 2) / 3) := by
  induction src using base64.induct with
  | case1 => rfl
  | case2 => simp [base64]
  | case3 => simp [base64]
  | case4 a b c rest ih => simp only [base64, List.length_append, List.length_cons, List.length_nil, ih]; omega

/-- On every text without the character `{` the decoder is memory safe. -/
theorem b64DecodeValue_safe : ∀ c : UInt8, c ≠ 123 → ∃ r, b64DecodeValue c = ok r := by
  have h : ∀ n : Fin 256, n.val ≠ 123 →
      (match b64DecodeValue (UInt8.ofNat n.val) with | ok _ => true | _ => false) = true := by decide +kernel
  intro c hc
  have := h ⟨c.toNat, u8_lt c⟩ (fun e => hc (UInt8.toNat_inj.mp e))
  simp only [UInt8.ofNat_toNat] at this
  cases hv : b64DecodeValue c with
  | ok r => exact ⟨r, rfl⟩
  | _ => simp [hv] at this

theorem base64_decode_safe (cap : Nat) : ∀ (cs : List UInt8) (s : B64DStep) (cur : Nat) (out : List UInt8), (∀ c ∈ cs, c ≠ 123) →
    out.length + cs.length < cap → ∃ r, b64DecodeLoop cap s cur cs out = ok r := by
  intro cs
  induction cs with
  | nil => intro s cur out _ h; exact ⟨out, by simp at h; simp [b64DecodeLoop, h]⟩
  | cons c cs ih =>
    intro s cur out hc h
    simp only [List.length_cons] at h
    obtain ⟨v, hv⟩ := b64DecodeValue_safe c (hc c (by simp))
    have hc' : ∀ c ∈ cs, c ≠ 123 := fun x hx => hc x (by simp [hx])
    cases v with
    | none => cases s <;> (simp only [b64DecodeLoop, hv, ok_bind]; exact ih _ _ _ hc' (by omega))
    | some f =>
      have h1 : out.length < cap := by omega
      cases s
      · simp only [b64DecodeLoop, hv, ok_bind, h1, if_true]; exact ih _ _ _ hc' (by omega)
      · have h2 : out.length + 1 < cap := by omega
        simp only [b64DecodeLoop, hv, ok_bind, h2, if_true]; exact ih _ _ _ hc' (by simp; omega)
      · have h2 : out.length + 1 < cap := by omega
        simp only [b64DecodeLoop, hv, ok_bind, h2, if_true]; exact ih _ _ _ hc' (by simp; omega)
      · simp only [b64DecodeLoop, hv, ok_bind, h1, if_true]; exact ih _ _ _ hc' (by simp; omega)

end Wdns
