import Verif.Spec.DecodeGrammar
import Verif.Lemmas.Base64
import Verif.Lemmas.Base32

namespace Wdns
open Outcome Spec

/-! ## Base64 -/

theorem b64DecodeValue_eq (c : UInt8) (h : c ≠ 123) : b64DecodeValue c = ok (b64Val c) := by
  have key : ∀ n : Fin 256, n.val ≠ 123 → b64DecodeValue (UInt8.ofNat n.val) = ok (b64Val (UInt8.ofNat n.val)) := by decide +kernel
  have := key ⟨c.toNat, u8_lt c⟩ (fun e => h (UInt8.toNat_inj.mp e))
  simpa [u8_ofNat_toNat] using this

theorem b64Val_lt {c : UInt8} {v : Nat} (h : b64Val c = some v) : v < 64 := by
  unfold b64Val at h
  repeat' split at h
  all_goals simp at h
  all_goals omega

theorem b64DecodeValue_brace : b64DecodeValue 123 = ub := by decide

/-- The state of the decoder after the digits `P` of an unfinished group. -/
def B64At : List Nat → B64DStep → Nat → Prop
  | [], .a, _ => True
  | [a], .b, cur => a < 64 ∧ cur = a * 4
  | [a, b], .c, cur => a < 64 ∧ b < 64 ∧ cur = b % 16 * 16
  | [a, b, c], .d, cur => a < 64 ∧ b < 64 ∧ c < 64 ∧ cur = c % 4 * 64
  | _, _, _ => False

theorem unpack64_short {P : List Nat} (h : P.length < 4) : unpack64 P = (oct3 P).take (6 * P.length / 8) := by
  match P, h with
  | [], _ => rfl
  | [_], _ => rfl
  | [_, _], _ => rfl
  | [_, _, _], _ => rfl

theorem oct3_1 {a b : Nat} (c d : Nat) (ha : a < 64) (hb : b < 64) (hc : c < 64) (hd : d < 64) :
    oct3 [a, b, c, d] = [UInt8.ofNat (a * 4 + b / 16), UInt8.ofNat (b % 16 * 16 + c / 4), UInt8.ofNat (c % 4 * 64 + d)] := by
  simp only [oct3, List.getD_cons_zero, List.getD_cons_succ]
  congr 1
  · congr 1; omega
  · congr 1
    · congr 1; omega
    · congr 2; omega

theorem oct3_pad (P : List Nat) (h : P.length ≤ 4) : oct3 P = oct3 (P ++ List.replicate (4 - P.length) 0) := by
  match P, h with
  | [], _ => rfl
  | [_], _ => rfl
  | [_, _], _ => rfl
  | [_, _, _], _ => rfl
  | [_, _, _, _], _ => rfl

theorem b64_exact (cap : Nat) : ∀ (s base : List UInt8) (P : List Nat) (st : B64DStep) (cur : Nat), B64At P st cur →
    123 ∉ s → (base ++ unpack64 P).length + s.length < cap →
    b64DecodeLoop cap st cur s (base ++ unpack64 P) = ok (base ++ unpack64 (P ++ s.filterMap b64Val))
  | [], base, P, st, cur, hP, hs, hc => by
    have : (base ++ unpack64 P).length < cap := by simpa using hc
    simp only [b64DecodeLoop, if_pos this]
    simp
  | c :: cs, base, P, st, cur, hP, hs, hc => by
    have h123 : c ≠ 123 := fun e => hs (by simp [e])
    have hs' : 123 ∉ cs := fun e => hs (by simp [e])
    rw [b64DecodeLoop, b64DecodeValue_eq c h123]
    simp only [ok_bind]
    cases hv : b64Val c with
    | none =>
      simp only
      rw [b64_exact cap cs base P st cur hP hs' (by simp at hc ⊢; omega)]
      simp [hv]
    | some v =>
      have hlt := b64Val_lt hv
      obtain ⟨d1, d2, d3, d4, d5, d6⟩ := b64_dbits v hlt
      simp only [hv, List.filterMap_cons]
      match P, st, hP with
      | [], .a, _ =>
        simp only [d1]
        rw [if_pos (by simp at hc ⊢; omega)]
        have := b64_exact cap cs base [v] .b (v * 4) ⟨hlt, rfl⟩ hs' (by simp [unpack64] at hc ⊢; omega)
        simpa [unpack64] using this
      | [a], .b, ⟨ha, hcur⟩ =>
        subst hcur
        simp only [d2, d3]
        rw [b64_dor1 a ha _ (by omega)]
        have hlen : (base ++ unpack64 [a]).length = base.length := by simp [unpack64]
        rw [hlen] at hc
        rw [if_pos (by rw [hlen]; simp at hc; omega)]
        have := b64_exact cap cs base [a, v] .c (v % 16 * 16) ⟨ha, hlt, rfl⟩ hs' (by
          rw [unpack64_short (by simp), oct3_pad _ (by simp)]
          simp [oct3] at hc ⊢; omega)
        have e : base ++ unpack64 [a] ++ [UInt8.ofNat (a * 4 + v / 16)] = base ++ unpack64 [a, v] := by
          rw [unpack64_short (P := [a, v]) (by simp), oct3_pad _ (by simp)]
          simp only [List.length_cons, List.length_nil, List.cons_append, List.nil_append, List.replicate]
          rw [oct3_1 0 0 ha hlt (by omega) (by omega)]
          simp [unpack64]
        rw [e, this]
        simp
      | [a, b], .c, ⟨ha, hb, hcur⟩ =>
        subst hcur
        simp only [d4, d5]
        rw [b64_dor2 (b % 16) (by omega) _ (by omega)]
        have hl2 : ∀ x y, (unpack64 [x, y]).length = 1 := by intro x y; rw [unpack64_short (by simp)]; simp [oct3]
        have hl3 : ∀ x y z, (unpack64 [x, y, z]).length = 2 := by intro x y z; rw [unpack64_short (by simp)]; simp [oct3]
        rw [List.length_append, hl2] at hc
        rw [if_pos (by rw [List.length_append, hl2]; simp at hc; omega)]
        have := b64_exact cap cs base [a, b, v] .d (v % 4 * 64) ⟨ha, hb, hlt, rfl⟩ hs' (by
          rw [List.length_append, hl3]; simp at hc; omega)
        have e : base ++ unpack64 [a, b] ++ [UInt8.ofNat (b % 16 * 16 + v / 4)] = base ++ unpack64 [a, b, v] := by
          rw [unpack64_short (P := [a, b, v]) (by simp), unpack64_short (P := [a, b]) (by simp), oct3_pad [a, b] (by simp), oct3_pad [a, b, v] (by simp)]
          simp only [List.length_cons, List.length_nil, List.cons_append, List.nil_append, List.replicate]
          rw [oct3_1 0 0 ha hb (by omega) (by omega), oct3_1 v 0 ha hb hlt (by omega)]
          simp
        rw [e, this]
        simp
      | [a, b, x], .d, ⟨ha, hb, hx, hcur⟩ =>
        subst hcur
        simp only [d6]
        rw [b64_dor3 (x % 4) (by omega) _ hlt]
        have hl3 : ∀ x y z, (unpack64 [x, y, z]).length = 2 := by intro x y z; rw [unpack64_short (by simp)]; simp [oct3]
        rw [List.length_append, hl3] at hc
        rw [if_pos (by rw [List.length_append, hl3]; simp at hc; omega)]
        have e : base ++ unpack64 [a, b, x] ++ [UInt8.ofNat (x % 4 * 64 + v)] = base ++ oct3 [a, b, x, v] := by
          rw [unpack64_short (P := [a, b, x]) (by simp), oct3_pad [a, b, x] (by simp)]
          simp only [List.length_cons, List.length_nil, List.cons_append, List.nil_append, List.replicate]
          rw [oct3_1 x 0 ha hb hx (by omega), oct3_1 x v ha hb hx hlt]
          simp
        have hz : unpack64 [] = [] := rfl
        have := b64_exact cap cs (base ++ oct3 [a, b, x, v]) [] .a 0 trivial hs' (by
          simp [oct3, hz] at hc ⊢; omega)
        rw [hz, List.append_nil] at this
        rw [e, this]
        simp [unpack64]

theorem b64_brace (cap : Nat) (s : List UInt8) : ∀ (st : B64DStep) (cur : Nat) (out r : List UInt8), 123 ∈ s →
    b64DecodeLoop cap st cur s out ≠ ok r := by
  induction s with
  | nil => intro st cur out r h; simp at h
  | cons c cs ih =>
    intro st cur out r h he
    rw [b64DecodeLoop] at he
    by_cases hc : c = 123
    · subst hc
      rw [b64DecodeValue_brace] at he
      cases he
    · have hm : 123 ∈ cs := by
        rcases List.mem_cons.mp h with h | h
        · exact absurd h.symm hc
        · exact h
      rw [b64DecodeValue_eq c hc] at he
      simp only [ok_bind] at he
      cases hv : b64Val c with
      | none => rw [hv] at he; exact ih _ _ _ _ hm he
      | some v =>
        rw [hv] at he
        cases st <;> simp only at he <;> split at he <;> first | exact ih _ _ _ _ hm he | cases he

theorem base64StrToBytes_iff (s r : List UInt8) : base64StrToBytes s = ok r ↔ 123 ∉ s ∧ r = unpack64 (s.filterMap b64Val) := by
  unfold base64StrToBytes
  constructor
  · intro h
    have hn : 123 ∉ s := fun hm => b64_brace _ _ _ _ _ _ hm h
    have := b64_exact (s.length + 1) s [] [] .a 0 trivial hn (by simp [unpack64])
    simp only [unpack64, List.nil_append] at this
    have e : ([] : List UInt8) ++ List.take (6 * ([] : List Nat).length / 8) (oct3 []) = [] := rfl
    simp at this
    rw [this] at h
    exact ⟨hn, (ok.inj h).symm⟩
  · rintro ⟨hn, rfl⟩
    have := b64_exact (s.length + 1) s [] [] .a 0 trivial hn (by simp [unpack64])
    simpa [unpack64] using this

/-! ## Base32 -/

theorem b32Map_eq (c : UInt8) : b32Map c = (b32Val c).getD 255 := by
  have key : ∀ n : Fin 256, b32Map (UInt8.ofNat n.val) = (b32Val (UInt8.ofNat n.val)).getD 255 := by decide +kernel
  have := key ⟨c.toNat, u8_lt c⟩
  simpa [u8_ofNat_toNat] using this

theorem b32Val_lt {c : UInt8} {v : Nat} (h : b32Val c = some v) : v < 32 := by
  unfold b32Val at h
  repeat' split at h
  all_goals simp at h
  all_goals omega

theorem oct5_byt5 (ds : List Nat) (h : ∀ v ∈ ds, v < 32) : oct5 ds = byt5 fun j => ds.getD j 0 := by
  have hl := getD_lt h
  simp only [oct5, byt5]
  have h0 := hl 0; have h1 := hl 1; have h2 := hl 2; have h3 := hl 3; have h4 := hl 4; have h5 := hl 5; have h6 := hl 6; have h7 := hl 7
  generalize ds.getD 0 0 = a0 at *; generalize ds.getD 1 0 = a1 at *; generalize ds.getD 2 0 = a2 at *; generalize ds.getD 3 0 = a3 at *
  generalize ds.getD 4 0 = a4 at *; generalize ds.getD 5 0 = a5 at *; generalize ds.getD 6 0 = a6 at *; generalize ds.getD 7 0 = a7 at *
  clear hl h
  congr 1
  · congr 1; omega
  · congr 1
    · congr 1; omega
    · congr 1
      · congr 1; omega
      · congr 1
        · congr 1; omega
        · congr 2; omega

theorem b32Bytes_oct5 (ds : List Nat) (h : ∀ v ∈ ds, v < 32) (hl : ds.length ≤ 8) :
    b32Bytes ds.length (fun j => ds.getD j 0) = (oct5 ds).take (5 * ds.length / 8) := by
  rw [b32Bytes_eq ds.length (5 * ds.length / 8) _ (getD_lt h), oct5_byt5 ds h]
  generalize ds.length = k at hl
  repeat' split
  all_goals omega

theorem unpack32_short {P : List Nat} (h : P.length < 8) : unpack32 P = (oct5 P).take (5 * P.length / 8) := by
  match P, h with
  | [], _ => rfl
  | [_], _ => rfl
  | [_, _], _ => rfl
  | [_, _, _], _ => rfl
  | [_, _, _, _], _ => rfl
  | [_, _, _, _, _], _ => rfl
  | [_, _, _, _, _, _], _ => rfl
  | [_, _, _, _, _, _, _], _ => rfl

theorem unpack32_eight {P : List Nat} (h : P.length = 8) (vs : List Nat) : unpack32 (P ++ vs) = oct5 P ++ unpack32 vs := by
  match P, h with
  | [a, b, c, d, e, f, g, i], _ => rfl

/-- A character of base32 text. -/
def B32Ok (c : UInt8) : Prop := c = 61 ∨ b32Val c ≠ none

theorem b32_pad (size : Nat) (cs out : List UInt8) (ho : out.length < size) :
    b32DecodeLoop size cs [] true out = some out ∧ (∀ c ∈ cs, B32Ok c) ∨
    b32DecodeLoop size cs [] true out = none ∧ ¬ (∀ c ∈ cs, B32Ok c) := by
  induction cs with
  | nil => left; simp [b32DecodeLoop]
  | cons c cs ih =>
    have step : ∀ s : List Nat, s.length < 2 → (if s.length = 8 ∨ true ∨ cs = [] then
        if (out ++ (b32Bytes s.length fun j => s.getD j 0).take (size - out.length)).length = size then
          some (out ++ (b32Bytes s.length fun j => s.getD j 0).take (size - out.length))
        else b32DecodeLoop size cs [] true (out ++ (b32Bytes s.length fun j => s.getD j 0).take (size - out.length))
      else if out.length = size then some out else b32DecodeLoop size cs s true out) = b32DecodeLoop size cs [] true out := by
      intro s hs
      have : b32Bytes s.length (fun j => s.getD j 0) = [] := by
        unfold b32Bytes
        simp [hs]
      rw [if_pos (by simp), this]
      simp only [List.take_nil, List.append_nil]
      rw [if_neg (by omega)]
    rw [b32DecodeLoop]
    simp only [Bool.true_eq, if_true] at step ⊢
    by_cases h61 : c = 61
    · subst h61
      rw [if_pos rfl]
      have := step [] (by simp)
      simp only [true_or, or_true, if_true] at this ⊢
      rw [this]
      rcases ih with ⟨h1, h2⟩ | ⟨h1, h2⟩
      · left; exact ⟨h1, by simpa [B32Ok] using h2⟩
      · right; exact ⟨h1, by simpa [B32Ok] using h2⟩
    · rw [if_neg h61, b32Map_eq]
      cases hv : b32Val c with
      | none =>
        right
        simp only [Option.getD_none, if_true, true_and]
        intro h
        have := h c (by simp)
        simp [B32Ok, h61, hv] at this
      | some v =>
        have hlt := b32Val_lt hv
        simp only [Option.getD_some]
        rw [if_neg (by omega)]
        have := step [v] (by simp)
        simp only [true_or, or_true, if_true, List.nil_append] at this ⊢
        rw [this]
        have hok : B32Ok c := Or.inr (by rw [hv]; simp)
        rcases ih with ⟨h1, h2⟩ | ⟨h1, h2⟩
        · left; exact ⟨h1, by simpa using ⟨hok, h2⟩⟩
        · right; exact ⟨h1, by simpa [hok] using h2⟩

/-- The digits before the padding. -/
def b32Body (cs : List UInt8) : List Nat := (cs.takeWhile (· ≠ 61)).filterMap b32Val

theorem b32_exact (size : Nat) : ∀ (cs : List UInt8) (s : List Nat) (out : List UInt8), s.length < 8 → (∀ v ∈ s, v < 32) →
    (cs = [] → s = []) → 8 * out.length + 5 * s.length + 8 * cs.length ≤ 8 * size →
    b32DecodeLoop size cs s false out = some (out ++ unpack32 (s ++ b32Body cs)) ∧ (∀ c ∈ cs, B32Ok c) ∨
    b32DecodeLoop size cs s false out = none ∧ ¬ (∀ c ∈ cs, B32Ok c)
  | [], s, out, h8, hlt, hs, hb => by
    have := hs rfl
    subst this
    left
    simp [b32DecodeLoop, b32Body, unpack32]
  | c :: cs, s, out, h8, hlt, hs, hb => by
    rw [b32DecodeLoop]
    simp only
    have hlo : out.length < size := by simp at hb; omega
    have hoct : ∀ ds : List Nat, (oct5 ds).length = 5 := fun _ => rfl
    by_cases h61 : c = 61
    · subst h61
      rw [if_pos rfl, if_pos (by simp)]
      rw [b32Bytes_oct5 s hlt (by omega)]
      have hle : (((oct5 s).take (5 * s.length / 8)).take (size - out.length)) = unpack32 s := by
        rw [unpack32_short h8, List.take_of_length_le]
        simp only [List.length_take, hoct]
        simp at hb
        omega
      rw [hle]
      have hlen : (out ++ unpack32 s).length < size := by
        rw [List.length_append, unpack32_short h8]
        simp only [List.length_take, hoct]
        simp at hb
        omega
      rw [if_neg (by omega)]
      have hbody : b32Body (61 :: cs) = [] := by simp [b32Body]
      rw [hbody, List.append_nil]
      rcases b32_pad size cs _ hlen with ⟨h1, h2⟩ | ⟨h1, h2⟩
      · left; exact ⟨h1, by simpa [B32Ok] using h2⟩
      · right; exact ⟨h1, by simpa [B32Ok] using h2⟩
    · rw [if_neg h61, b32Map_eq]
      cases hv : b32Val c with
      | none =>
        right
        simp only [Option.getD_none, if_true, true_and]
        intro h
        have := h c (by simp)
        simp [B32Ok, h61, hv] at this
      | some v =>
        have hv32 := b32Val_lt hv
        have hok : B32Ok c := Or.inr (by rw [hv]; simp)
        have hbody : b32Body (c :: cs) = v :: b32Body cs := by
          simp [b32Body, h61, hv]
        have hlt' : ∀ x ∈ s ++ [v], x < 32 := by
          intro x hx
          rcases List.mem_append.mp hx with hx | hx
          · exact hlt x hx
          · simp at hx; omega
        simp only [Option.getD_some]
        rw [if_neg (by omega), hbody]
        by_cases hf : (s ++ [v]).length = 8 ∨ cs = []
        · rw [if_pos (by rcases hf with h | h <;> simp [h])]
          rw [b32Bytes_oct5 _ hlt' (by simp; omega)]
          have hle : (((oct5 (s ++ [v])).take (5 * (s ++ [v]).length / 8)).take (size - out.length)) =
              (oct5 (s ++ [v])).take (5 * (s ++ [v]).length / 8) := by
            rw [List.take_of_length_le]
            simp only [List.length_take, hoct, List.length_append, List.length_singleton]
            simp at hb
            omega
          rw [hle]
          have hlen : 8 * (out ++ (oct5 (s ++ [v])).take (5 * (s ++ [v]).length / 8)).length + 8 * cs.length < 8 * size := by
            simp only [List.length_append, List.length_take, hoct, List.length_singleton]
            simp at hb
            omega
          rw [if_neg (by omega)]
          have := b32_exact size cs [] (out ++ (oct5 (s ++ [v])).take (5 * (s ++ [v]).length / 8)) (by simp) (by simp) (fun _ => rfl)
            (by simp only [List.length_nil]; omega)
          have e : out ++ (oct5 (s ++ [v])).take (5 * (s ++ [v]).length / 8) ++ unpack32 ([] ++ b32Body cs) =
              out ++ unpack32 (s ++ v :: b32Body cs) := by
            rw [show s ++ v :: b32Body cs = (s ++ [v]) ++ b32Body cs by simp]
            by_cases h8' : (s ++ [v]).length = 8
            · rw [unpack32_eight h8', h8', List.take_of_length_le (by simp [hoct])]
              simp
            · have hcs : cs = [] := by
                rcases hf with h | h
                · exact absurd h h8'
                · exact h
              subst hcs
              have hb0 : b32Body [] = [] := rfl
              rw [hb0, List.append_nil, List.append_nil, unpack32_short (P := s ++ [v]) (by simp at h8' ⊢; omega)]
              simp [unpack32]
          rw [e] at this
          rcases this with ⟨h1, h2⟩ | ⟨h1, h2⟩
          · left; exact ⟨h1, by simpa using ⟨hok, h2⟩⟩
          · right; exact ⟨h1, by simpa [hok] using h2⟩
        · rw [if_neg (by simpa using hf), if_neg (by omega)]
          have hf' := not_or.mp hf
          have := b32_exact size cs (s ++ [v]) out (by simp at hf' ⊢; omega) hlt' (fun h => absurd h hf'.2) (by
            simp at hb ⊢; omega)
          rw [show s ++ v :: b32Body cs = (s ++ [v]) ++ b32Body cs by simp]
          rcases this with ⟨h1, h2⟩ | ⟨h1, h2⟩
          · left; exact ⟨h1, by simpa using ⟨hok, h2⟩⟩
          · right; exact ⟨h1, by simpa [hok] using h2⟩

theorem base32Decode_iff (t w : List UInt8) :
    base32Decode t.length t = some w ↔ (∀ c ∈ t, c = 61 ∨ b32Val c ≠ none) ∧ w = unpack32 ((t.takeWhile (· ≠ 61)).filterMap b32Val) := by
  unfold base32Decode
  have := b32_exact t.length t [] [] (by simp) (by simp) (fun _ => rfl) (by simp)
  rcases this with ⟨h1, h2⟩ | ⟨h1, h2⟩
  · rw [h1]
    constructor
    · intro h; exact ⟨h2, (Option.some.inj h).symm⟩
    · rintro ⟨-, rfl⟩; rfl
  · rw [h1]
    constructor
    · intro h; cases h
    · rintro ⟨h, -⟩; exact absurd h h2

end Wdns
