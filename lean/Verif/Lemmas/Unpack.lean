import Verif.Spec.Name
import Verif.Model.Name
import Verif.Tac

/-! Helper lemmas for `unpackName`, `copyUname`. -/

namespace Wdns
open Outcome Spec

@[simp] theorem wire_length_pos (n : Name) : 1 ≤ (wire n).length := by
  cases n <;> simp [wire]

theorem wire_cons_length (l : Label) (n : Name) :
    (wire (l :: n)).length = l.length + 1 + (wire n).length := by
  simp [wire]; omega

theorem u8_eq_zero {c : UInt8} : c = 0 ↔ c.toNat = 0 := by
  constructor
  · rintro rfl; rfl
  · intro h; exact UInt8.toNat_inj.mp h

theorem u8_ofNat_toNat (c : UInt8) : UInt8.ofNat c.toNat = c := by simp

theorem u8_lt (c : UInt8) : c.toNat < 256 := c.toNat_lt

theorem take_drop_length {α} (mem : List α) (i n : Nat) (h : i + n ≤ mem.length) :
    ((mem.drop i).take n).length = n := by simp; omega

theorem getElem?_some_lt {α} {l : List α} {i : Nat} {a : α} (h : l[i]? = some a) : i < l.length := by
  rcases List.getElem?_eq_some_iff.mp h with ⟨h, _⟩; exact h

theorem getElem?_take_lt {α} {l : List α} {i k : Nat} (h : i < k) : (l.take k)[i]? = l[i]? := by
  simp [h]

/-! ### One-step equations -/

theorem unpack_none {cap mem p eop fuel src out total} (h : mem[src]? = none) :
    unpackLoop cap mem p eop (fuel + 1) src out total = ub := by
  simp [unpackLoop, rd, h]

theorem unpack_zero {cap mem p eop fuel src out total} (h : mem[src]? = some 0) :
    unpackLoop cap mem p eop (fuel + 1) src out total =
      if out.length + 1 ≤ cap then ok (out ++ [0], total + 1) else ub := by
  simp only [unpackLoop, rd, h, ok_bind, if_true, wr]
  split <;> simp

theorem unpack_bad {cap mem p eop fuel src out total} {c : UInt8} (h : mem[src]? = some c)
    (h1 : 63 < c.toNat) (h2 : c.toNat < 192) :
    unpackLoop cap mem p eop (fuel + 1) src out total = err .invalidLengthOctet := by
  have h0 : c ≠ 0 := by rw [Ne, u8_eq_zero]; omega
  simp only [unpackLoop, rd, h, ok_bind]
  rw [if_neg h0, if_neg (by omega), if_neg (by omega)]

theorem unpack_label {cap mem p eop fuel src out total} {c : UInt8} (h : mem[src]? = some c)
    (h1 : 1 ≤ c.toNat) (h2 : c.toNat ≤ 63) :
    unpackLoop cap mem p eop (fuel + 1) src out total =
      if total + 1 ≥ 255 then err .nameOverflow
      else if cap < out.length + 1 then ub
      else if total + 1 + c.toNat ≥ 255 then err .nameOverflow
      else if src + 1 + c.toNat > eop then err .outOfBounds
      else if mem.length < src + 1 + c.toNat then ub
      else if cap < out.length + 1 + c.toNat then ub
      else unpackLoop cap mem p eop fuel (src + 1 + c.toNat)
        (out ++ c :: (mem.drop (src + 1)).take c.toNat) (total + 1 + c.toNat) := by
  have h0 : c ≠ 0 := by rw [Ne, u8_eq_zero]; omega
  rw [unpackLoop]
  simp only [rd, h, ok_bind]
  rw [if_neg h0, if_neg (by omega), if_pos h2]
  simp only [maxlenName, wr, rdN, wrN]
  by_cases a1 : total + 1 ≥ 255
  · simp only [a1, if_true]
  by_cases a2 : out.length + 1 ≤ cap
  rotate_left
  · simp only [a1, a2, if_false, show cap < out.length + 1 by omega, if_true, ub_bind]
  by_cases a3 : total + 1 + c.toNat ≥ 255
  · simp only [a1, a2, a3, if_false, if_true, show ¬ cap < out.length + 1 by omega, ok_bind]
  by_cases a4 : src + 1 + c.toNat > eop
  · simp only [a1, a2, a3, a4, if_false, if_true, show ¬ cap < out.length + 1 by omega, ok_bind]
  by_cases a5 : src + 1 + c.toNat ≤ mem.length
  rotate_left
  · simp only [a1, a2, a3, a4, a5, if_false, if_true, show ¬ cap < out.length + 1 by omega, ok_bind,
      show mem.length < src + 1 + c.toNat by omega, ub_bind]
  simp only [a1, a2, a3, a4, a5, if_false, if_true, show ¬ cap < out.length + 1 by omega, ok_bind,
      show ¬ mem.length < src + 1 + c.toNat by omega, take_drop_length mem (src + 1) c.toNat a5,
      List.length_append, List.length_singleton]
  by_cases a6 : out.length + 1 + c.toNat ≤ cap
  · simp [a6, show ¬ cap < out.length + 1 + c.toNat by omega]
  · simp [a6, show cap < out.length + 1 + c.toNat by omega]

theorem unpack_ptr {cap mem p eop fuel src out total} {c : UInt8} (h : mem[src]? = some c)
    (h1 : 192 ≤ c.toNat) :
    unpackLoop cap mem p eop (fuel + 1) src out total =
      if src + 1 > eop then err .outOfBounds
      else match mem[src + 1]? with
        | none => ub
        | some lo =>
          if p + ((c.toNat % 64) * 256 + lo.toNat) > eop ∨
             src ≤ p + ((c.toNat % 64) * 256 + lo.toNat) then err .invalidCompressionPointer
          else unpackLoop cap mem p eop fuel (p + ((c.toNat % 64) * 256 + lo.toNat)) out total := by
  have h0 : c ≠ 0 := by rw [Ne, u8_eq_zero]; omega
  rw [unpackLoop]
  simp only [rd, h, ok_bind]
  rw [if_neg h0, if_pos (by omega)]
  by_cases a1 : src + 1 > eop
  · simp only [a1, if_true]
  simp only [a1, if_false]
  cases hlo : mem[src + 1]? with
  | none => simp
  | some lo =>
    simp only [ok_bind, Nat.add_sub_cancel, h, h0, and_false, if_false]
    split_ifs <;> first | rfl | (exfalso; omega)

/-- The byte classes the loops distinguish. -/
theorem byte_cases (c : UInt8) : c = 0 ∨ (1 ≤ c.toNat ∧ c.toNat ≤ 63) ∨
    (63 < c.toNat ∧ c.toNat < 192) ∨ 192 ≤ c.toNat := by
  rw [u8_eq_zero]; omega

/-! ### Soundness -/

theorem unpackLoop_sound {cap mem p eop} : ∀ fuel src out total o' t',
    unpackLoop cap mem p eop fuel src out total = ok (o', t') →
    total = out.length → total ≤ 254 → src ≤ eop →
    ∃ n, o' = out ++ wire n ∧ t' = o'.length ∧ (∀ l ∈ n, LabelOK l) ∧ o'.length ≤ 255 ∧
      Denotes (mem.take (eop + 1)) p src n := by
  intro fuel
  induction fuel with
  | zero => intro src out total o' t' h; simp [unpackLoop] at h
  | succ fuel ih =>
    intro src out total o' t' h htot hle hsrc
    cases hc : mem[src]? with
    | none => simp [unpack_none hc] at h
    | some c =>
    have hc' : (mem.take (eop + 1))[src]? = some c := by
      rw [getElem?_take_lt (by omega)]; exact hc
    rcases byte_cases c with rfl | ⟨h1, h2⟩ | ⟨h1, h2⟩ | h1
    · rw [unpack_zero hc] at h
      split at h <;> simp at h
      obtain ⟨rfl, rfl⟩ := h
      exact ⟨[], by simp [wire], by simp [htot], by simp, by simp; omega, .root hc'⟩
    · rw [unpack_label hc h1 h2] at h
      split_ifs at h with a1 a2 a3 a4 a5 a6
      have hl := take_drop_length mem (src + 1) c.toNat (by omega)
      obtain ⟨n, e1, e2, e3, e4, e5⟩ := ih _ _ _ _ _ h (by simp [hl]; omega) (by omega) (by omega)
      refine ⟨(mem.drop (src + 1)).take c.toNat :: n, ?_, e2, ?_, e4, ?_⟩
      · rw [e1, wire, hl, u8_ofNat_toNat]; simp
      · intro l hm
        rcases List.mem_cons.mp hm with rfl | hm
        · exact ⟨by omega, by omega⟩
        · exact e3 l hm
      · have he : (mem.drop (src + 1)).take c.toNat =
            ((mem.take (eop + 1)).drop (src + 1)).take c.toNat := by
          rw [List.drop_take, List.take_take, Nat.min_eq_left (by omega)]
        rw [he]
        exact .label hc' h1 h2 (by simp; omega) e5
    · simp [unpack_bad hc h1 h2] at h
    · rw [unpack_ptr hc h1] at h
      split at h
      · simp at h
      cases hlo : mem[src + 1]? with
      | none => simp [hlo] at h
      | some lo =>
        simp only [hlo] at h
        split at h
        · simp at h
        obtain ⟨n, e1, e2, e3, e4, e5⟩ := ih _ _ _ _ _ h htot hle (by omega)
        exact ⟨n, e1, e2, e3, e4, .ptr hc' h1 (by rw [getElem?_take_lt (by omega)]; exact hlo) (by omega) e5⟩

/-! ### Termination -/

theorem unpackLoop_no_hang {cap mem p eop} : ∀ fuel src out total,
    src ≤ eop → total ≤ 254 → (255 - total) * (eop + 2) + src < fuel →
    unpackLoop cap mem p eop fuel src out total ≠ hang := by
  intro fuel
  induction fuel with
  | zero => intro src out total h1 h2 h; omega
  | succ fuel ih =>
    intro src out total hs ht hf
    cases hc : mem[src]? with
    | none => simp [unpack_none hc]
    | some c =>
    rcases byte_cases c with rfl | ⟨h1, h2⟩ | ⟨h1, h2⟩ | h1
    · rw [unpack_zero hc]; split <;> simp
    · rw [unpack_label hc h1 h2]
      split_ifs <;> try simp
      refine ih _ _ _ (by omega) (by omega) ?_
      have : (255 - (total + 1 + c.toNat)) * (eop + 2) + (eop + 2) ≤ (255 - total) * (eop + 2) := by
        rw [← Nat.succ_mul]; exact Nat.mul_le_mul_right _ (by omega)
      omega
    · simp [unpack_bad hc h1 h2]
    · rw [unpack_ptr hc h1]
      split
      · simp
      cases hlo : mem[src + 1]? with
      | none => simp
      | some lo =>
        simp only
        split
        · simp
        exact ih _ _ _ (by omega) ht (by omega)

theorem unpackLoop_mono {cap mem p eop} : ∀ fuel src out total,
    unpackLoop cap mem p eop fuel src out total ≠ hang → ∀ fuel', fuel ≤ fuel' →
    unpackLoop cap mem p eop fuel' src out total = unpackLoop cap mem p eop fuel src out total := by
  intro fuel
  induction fuel with
  | zero => intro src out total h; simp [unpackLoop] at h
  | succ fuel ih =>
    intro src out total h fuel' hf
    obtain ⟨f, rfl⟩ : ∃ f, fuel' = f + 1 := ⟨fuel' - 1, by omega⟩
    cases hc : mem[src]? with
    | none => simp [unpack_none hc]
    | some c =>
    rcases byte_cases c with rfl | ⟨h1, h2⟩ | ⟨h1, h2⟩ | h1
    · rw [unpack_zero hc, unpack_zero hc]
    · rw [unpack_label hc h1 h2] at h
      rw [unpack_label hc h1 h2, unpack_label hc h1 h2]
      split_ifs at h ⊢ <;> try rfl
      exact ih _ _ _ h _ (by omega)
    · simp [unpack_bad hc h1 h2]
    · rw [unpack_ptr hc h1] at h
      rw [unpack_ptr hc h1, unpack_ptr hc h1]
      split
      · rfl
      rename_i h3
      rw [if_neg h3] at h
      cases hlo : mem[src + 1]? with
      | none => simp
      | some lo =>
        simp only [hlo] at h ⊢
        split
        · rfl
        rename_i h4
        rw [if_neg h4] at h
        exact ih _ _ _ h _ (by omega)

/-! ### Completeness -/

theorem unpackLoop_complete {cap mem p eop} (hcap : 255 ≤ cap) {src n}
    (h : Denotes (mem.take (eop + 1)) p src n) : ∀ out total, total = out.length →
    total + (wire n).length ≤ 255 →
    ∃ fuel, unpackLoop cap mem p eop fuel src out total =
      ok (out ++ wire n, total + (wire n).length) := by
  induction h with
  | @root o h0 =>
    intro out total ht hw
    have hc : mem[o]? = some 0 := by
      have := getElem?_some_lt h0
      rw [getElem?_take_lt (by simp at this; omega)] at h0; exact h0
    refine ⟨1, ?_⟩
    simp only [wire, List.length_singleton] at hw
    rw [unpack_zero hc, if_pos (by omega)]; simp [wire]
  | @label o c n h0 h1 h2 h3 h4 ih =>
    intro out total ht hw
    have hlt := getElem?_some_lt h0
    simp only [List.length_take] at hlt h3
    have hc : mem[o]? = some c := by
      rw [getElem?_take_lt (by omega)] at h0; exact h0
    have he : (mem.drop (o + 1)).take c.toNat =
            ((mem.take (eop + 1)).drop (o + 1)).take c.toNat := by
          rw [List.drop_take, List.take_take, Nat.min_eq_left (by omega)]
    rw [← he] at hw ⊢
    have hl := take_drop_length mem (o + 1) c.toNat (by omega)
    rw [wire_cons_length, hl] at hw
    have hwp := wire_length_pos n
    have hne : o + 1 + c.toNat ≤ eop := by
      have : o + 1 + c.toNat < (mem.take (eop + 1)).length := by
        cases h4 <;> exact getElem?_some_lt (by assumption)
      simp at this; omega
    obtain ⟨f, hf⟩ := ih (out ++ c :: (mem.drop (o + 1)).take c.toNat) (total + 1 + c.toNat)
      (by simp [hl]; omega) (by omega)
    refine ⟨f + 1, ?_⟩
    rw [unpack_label hc h1 h2, if_neg (by omega), if_neg (by omega), if_neg (by omega),
      if_neg (by omega), if_neg (by omega), if_neg (by omega), hf, wire, hl, u8_ofNat_toNat]
    simp
    omega
  | @ptr o hi lo n h0 h1 h2 h3 h4 ih =>
    intro out total ht hw
    have hlt := getElem?_some_lt h2
    simp only [List.length_take] at hlt
    rw [getElem?_take_lt (by omega)] at h0 h2
    obtain ⟨f, hf⟩ := ih out total ht hw
    refine ⟨f + 1, ?_⟩
    rw [unpack_ptr h0 h1, if_neg (by omega)]
    simp only [h2]
    rw [if_neg (by omega), hf]

/-! ### Memory safety and locality -/

theorem unpackLoop_safe {cap mem p eop} (hcap : 255 ≤ cap) (hm : eop < mem.length) :
    ∀ fuel src out total, total = out.length → total ≤ 254 → src ≤ eop →
    unpackLoop cap mem p eop fuel src out total ≠ ub := by
  intro fuel
  induction fuel with
  | zero => intro src out total _ _ _; simp [unpackLoop]
  | succ fuel ih =>
    intro src out total ht h254 hs
    cases hc : mem[src]? with
    | none => simp at hc; omega
    | some c =>
    rcases byte_cases c with rfl | ⟨h1, h2⟩ | ⟨h1, h2⟩ | h1
    · rw [unpack_zero hc, if_pos (by omega)]; simp
    · rw [unpack_label hc h1 h2]
      split_ifs <;> first | (exfalso; omega) | simp | skip
      have hl := take_drop_length mem (src + 1) c.toNat (by omega)
      exact ih _ _ _ (by simp [hl]; omega) (by omega) (by omega)
    · simp [unpack_bad hc h1 h2]
    · rw [unpack_ptr hc h1]
      split
      · simp
      cases hlo : mem[src + 1]? with
      | none => simp at hlo; omega
      | some lo =>
        simp only
        split
        · simp
        exact ih _ _ _ ht h254 (by omega)

theorem unpackLoop_no_abort {cap mem p eop} :
    ∀ fuel src out total, unpackLoop cap mem p eop fuel src out total ≠ abort := by
  intro fuel
  induction fuel with
  | zero => intro src out total; simp [unpackLoop]
  | succ fuel ih =>
    intro src out total
    cases hc : mem[src]? with
    | none => simp [unpack_none hc]
    | some c =>
    rcases byte_cases c with rfl | ⟨h1, h2⟩ | ⟨h1, h2⟩ | h1
    · rw [unpack_zero hc]; split <;> simp
    · rw [unpack_label hc h1 h2]
      split_ifs <;> first | exact ih _ _ _ | simp
    · simp [unpack_bad hc h1 h2]
    · rw [unpack_ptr hc h1]
      split
      · simp
      cases hlo : mem[src + 1]? with
      | none => simp
      | some lo =>
        simp only
        split
        · simp
        exact ih _ _ _

/-- Two lists that agree on `[a, b)` have the same slices inside. -/
theorem slice_congr {α} {m m' : List α} {i n : Nat}
    (h : ∀ j, i ≤ j → j < i + n → m[j]? = m'[j]?) :
    (m.drop i).take n = (m'.drop i).take n := by
  apply List.ext_getElem?
  intro k
  simp only [List.getElem?_take, List.getElem?_drop]
  split
  · exact h _ (by omega) (by omega)
  · rfl

theorem unpackLoop_local {cap mem mem' p eop} (hm : eop ≤ mem.length) (hm' : eop ≤ mem'.length)
    (h : ∀ i, p ≤ i → i ≤ eop → mem[i]? = mem'[i]?) :
    ∀ fuel src out total, p ≤ src → src ≤ eop →
    unpackLoop cap mem p eop fuel src out total = unpackLoop cap mem' p eop fuel src out total := by
  intro fuel
  induction fuel with
  | zero => intro src out total _ _; simp [unpackLoop]
  | succ fuel ih =>
    intro src out total hp hs
    have hh := h src hp hs
    cases hc : mem[src]? with
    | none => rw [hc] at hh; rw [unpack_none hc, unpack_none hh.symm]
    | some c =>
    rw [hc] at hh
    rcases byte_cases c with rfl | ⟨h1, h2⟩ | ⟨h1, h2⟩ | h1
    · rw [unpack_zero hc, unpack_zero hh.symm]
    · rw [unpack_label hc h1 h2, unpack_label hh.symm h1 h2]
      by_cases a4 : src + 1 + c.toNat > eop
      · simp only [a4, if_true]
      · simp only [a4, if_false]
        rw [slice_congr (m := mem) (m' := mem') (fun j _ _ => h j (by omega) (by omega)),
          ih _ _ _ (by omega) (by omega)]
        simp only [show ¬ mem.length < src + 1 + c.toNat by omega,
          show ¬ mem'.length < src + 1 + c.toNat by omega]
    · rw [unpack_bad hc h1 h2, unpack_bad hh.symm h1 h2]
    · rw [unpack_ptr hc h1, unpack_ptr hh.symm h1]
      split
      · rfl
      rw [← h (src + 1) (by omega) (by omega)]
      cases hlo : mem[src + 1]? with
      | none => simp
      | some lo =>
        simp only
        split
        · rfl
        exact ih _ _ _ (by omega) (by omega)

end Wdns
