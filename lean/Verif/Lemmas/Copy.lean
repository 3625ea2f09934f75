import Verif.Lemmas.Unpack

/-! Helper lemmas for uncompressed names: `copyUname`, stored names. -/

namespace Wdns
open Outcome Spec

theorem prefix_drop_cons {α} {a : α} {xs msg : List α} {o : Nat} :
    (a :: xs) <+: msg.drop o ↔ msg[o]? = some a ∧ xs <+: msg.drop (o + 1) := by
  constructor
  · rintro ⟨t, ht⟩
    have h0 : msg[o]? = some a := by
      have := congrArg (fun l => l[0]?) ht
      simpa using this.symm
    refine ⟨h0, t, ?_⟩
    have := congrArg (fun l => l.drop 1) ht
    simpa [List.drop_drop, Nat.add_comm] using this
  · rintro ⟨h0, t, ht⟩
    refine ⟨t, ?_⟩
    have hlt := getElem?_some_lt h0
    rw [List.drop_eq_getElem_cons hlt]
    rw [List.getElem?_eq_getElem hlt] at h0
    rw [Option.some.inj h0, ← ht]; simp

theorem prefix_drop_append {α} {xs ys msg : List α} {o : Nat} :
    (xs ++ ys) <+: msg.drop o ↔ xs <+: msg.drop o ∧ ys <+: msg.drop (o + xs.length) := by
  induction xs generalizing o with
  | nil => simp
  | cons a xs ih =>
    rw [List.cons_append, prefix_drop_cons, prefix_drop_cons, ih]
    rw [show o + (a :: xs).length = o + 1 + xs.length by simp; omega, and_assoc]

theorem prefix_drop_iff {α} {xs msg : List α} {o : Nat} :
    xs <+: msg.drop o ↔ (msg.drop o).take xs.length = xs := by
  rw [List.prefix_iff_eq_take]; exact eq_comm

theorem prefix_drop_length {α} {xs msg : List α} {o : Nat} (h : xs <+: msg.drop o) (ho : xs ≠ []) :
    o + xs.length ≤ msg.length := by
  have := h.length_le
  have : 0 < xs.length := List.length_pos_iff.mpr ho
  simp at *; omega

theorem wire_ne_nil (n : Name) : wire n ≠ [] := by cases n <;> simp [wire]

theorem ofNat_label_toNat {l : Label} (h : LabelOK l) : (UInt8.ofNat l.length).toNat = l.length := by
  have := h.2
  simp; omega

theorem stored_cons {l : Label} {n : Name} {msg : List UInt8} {o : Nat} :
    wire (l :: n) <+: msg.drop o ↔ msg[o]? = some (UInt8.ofNat l.length) ∧
      l <+: msg.drop (o + 1) ∧ wire n <+: msg.drop (o + 1 + l.length) := by
  rw [wire, prefix_drop_cons, prefix_drop_append]

theorem stored_nil {msg : List UInt8} {o : Nat} :
    wire [] <+: msg.drop o ↔ msg[o]? = some 0 := by
  rw [wire, prefix_drop_cons]; simp

theorem denotes_of_stored {msg : List UInt8} {base : Nat} : ∀ {n : Name} {o : Nat},
    (∀ l ∈ n, LabelOK l) → wire n <+: msg.drop o → Denotes msg base o n := by
  intro n
  induction n with
  | nil => intro o _ h; exact .root (stored_nil.mp h)
  | cons l n ih =>
    intro o hok h
    obtain ⟨h1, h2, h3⟩ := stored_cons.mp h
    have hl := hok l (by simp)
    have e := ofNat_label_toNat hl
    have hlen := prefix_drop_length h2 (by intro h; subst h; exact absurd hl.1 (by simp))
    have e2 := prefix_drop_iff.mp h2
    have := Denotes.label (base := base) h1 (by rw [e]; exact hl.1) (by rw [e]; exact hl.2)
      (by rw [e]; exact hlen) (by rw [e]; exact ih (fun l hm => hok l (by simp [hm])) h3)
    rw [e, e2] at this
    exact this

/-! ### copyLoop -/

theorem copy_none {cap mem eop fuel src out total} (h : mem[src]? = none) :
    copyLoop cap mem eop (fuel + 1) src out total = ub := by
  simp [copyLoop, rd, h]

theorem copy_zero {cap mem eop fuel src out total} (h : mem[src]? = some 0) :
    copyLoop cap mem eop (fuel + 1) src out total =
      if out.length + 1 ≤ cap then ok (out ++ [0], total + 1) else ub := by
  simp only [copyLoop, rd, h, ok_bind, if_true, wr]
  split <;> simp

theorem copy_bad {cap mem eop fuel src out total} {c : UInt8} (h : mem[src]? = some c)
    (h1 : 63 < c.toNat) :
    copyLoop cap mem eop (fuel + 1) src out total = err .invalidLengthOctet := by
  have h0 : c ≠ 0 := by rw [Ne, u8_eq_zero]; omega
  simp only [copyLoop, rd, h, ok_bind]
  rw [if_neg h0, if_neg (by omega)]

theorem copy_label {cap mem eop fuel src out total} {c : UInt8} (h : mem[src]? = some c)
    (h1 : 1 ≤ c.toNat) (h2 : c.toNat ≤ 63) :
    copyLoop cap mem eop (fuel + 1) src out total =
      if total + 1 ≥ 255 then err .nameOverflow
      else if cap < out.length + 1 then ub
      else if total + 1 + c.toNat ≥ 255 then err .nameOverflow
      else if src + 1 + c.toNat > eop then err .outOfBounds
      else if mem.length < src + 1 + c.toNat then ub
      else if cap < out.length + 1 + c.toNat then ub
      else copyLoop cap mem eop fuel (src + 1 + c.toNat)
        (out ++ c :: (mem.drop (src + 1)).take c.toNat) (total + 1 + c.toNat) := by
  have h0 : c ≠ 0 := by rw [Ne, u8_eq_zero]; omega
  rw [copyLoop]
  simp only [rd, h, ok_bind]
  rw [if_neg h0, if_pos h2]
  simp only [maxlenName, wr, rdN, wrN]
  by_cases a1 : total + 1 ≥ 255
  · simp only [a1, if_true]
  by_cases a2 : out.length + 1 ≤ cap
  rotate_left
  · simp only [a1, a2, if_false, show cap < out.length + 1 by omega, if_true, ub_bind]
  by_cases a3 : total + 1 + c.toNat ≥ 255
  · simp only [a1, a2, a3, if_false, if_true, show ¬ cap < out.length + 1 by omega, ok_bind]
  by_cases a4 : src + 1 + c.toNat > eop
  · simp only [a1, a2, a3, a4, if_false, if_true, show ¬ cap < out.length + 1 by omega, ok_bind]
  by_cases a5 : src + 1 + c.toNat ≤ mem.length
  rotate_left
  · simp only [a1, a2, a3, a4, a5, if_false, if_true, show ¬ cap < out.length + 1 by omega, ok_bind,
      show mem.length < src + 1 + c.toNat by omega, ub_bind]
  simp only [a1, a2, a3, a4, a5, if_false, if_true, show ¬ cap < out.length + 1 by omega, ok_bind,
      show ¬ mem.length < src + 1 + c.toNat by omega, take_drop_length mem (src + 1) c.toNat a5,
      List.length_append, List.length_singleton]
  by_cases a6 : out.length + 1 + c.toNat ≤ cap
  · simp [a6, show ¬ cap < out.length + 1 + c.toNat by omega]
  · simp [a6, show cap < out.length + 1 + c.toNat by omega]

/-- The copying loop does what the decompressing loop does until it meets an octet >= 192. -/
theorem copyLoop_imp_unpack {cap mem p eop} : ∀ fuel src out total r,
    copyLoop cap mem eop fuel src out total = ok r →
    unpackLoop cap mem p eop fuel src out total = ok r := by
  intro fuel
  induction fuel with
  | zero => intro src out total r h; simp [copyLoop] at h
  | succ fuel ih =>
    intro src out total r h
    cases hc : mem[src]? with
    | none => simp [copy_none hc] at h
    | some c =>
    rcases byte_cases c with rfl | ⟨h1, h2⟩ | ⟨h1, h2⟩ | h1
    · rw [copy_zero hc] at h; rw [unpack_zero hc]; exact h
    · rw [copy_label hc h1 h2] at h; rw [unpack_label hc h1 h2]
      split_ifs at h ⊢
      exact ih _ _ _ _ h
    · simp [copy_bad hc h1] at h
    · simp [copy_bad hc (show 63 < c.toNat by omega)] at h

theorem copyLoop_sound {cap mem eop} : ∀ fuel src out total o' t',
    copyLoop cap mem eop fuel src out total = ok (o', t') → total = out.length → total ≤ 254 →
    src ≤ eop →
    ∃ n, o' = out ++ wire n ∧ t' = o'.length ∧ (∀ l ∈ n, LabelOK l) ∧ o'.length ≤ 255 ∧
      wire n <+: (mem.take (eop + 1)).drop src := by
  intro fuel
  induction fuel with
  | zero => intro src out total o' t' h; simp [copyLoop] at h
  | succ fuel ih =>
    intro src out total o' t' h htot hle hsrc
    cases hc : mem[src]? with
    | none => simp [copy_none hc] at h
    | some c =>
    have hc' : (mem.take (eop + 1))[src]? = some c := by
      rw [getElem?_take_lt (by omega)]; exact hc
    rcases byte_cases c with rfl | ⟨h1, h2⟩ | ⟨h1, h2⟩ | h1
    · rw [copy_zero hc] at h
      split at h <;> simp at h
      obtain ⟨rfl, rfl⟩ := h
      exact ⟨[], by simp [wire], by simp [htot], by simp, by simp; omega, stored_nil.mpr hc'⟩
    · rw [copy_label hc h1 h2] at h
      split_ifs at h with a1 a2 a3 a4 a5 a6
      have hl := take_drop_length mem (src + 1) c.toNat (by omega)
      obtain ⟨n, e1, e2, e3, e4, e5⟩ := ih _ _ _ _ _ h (by simp [hl]; omega) (by omega) (by omega)
      refine ⟨(mem.drop (src + 1)).take c.toNat :: n, ?_, e2, ?_, e4, ?_⟩
      · rw [e1, wire, hl, u8_ofNat_toNat]; simp
      · intro l hm
        rcases List.mem_cons.mp hm with rfl | hm
        · exact ⟨by omega, by omega⟩
        · exact e3 l hm
      · rw [stored_cons, hl, u8_ofNat_toNat]
        refine ⟨hc', ?_, e5⟩
        rw [prefix_drop_iff, hl, List.drop_take, List.take_take, Nat.min_eq_left (by omega)]
    · simp [copy_bad hc h1] at h
    · simp [copy_bad hc (show 63 < c.toNat by omega)] at h

theorem copyLoop_no_hang {cap mem eop} : ∀ fuel src out total,
    src ≤ eop → eop - src < fuel → copyLoop cap mem eop fuel src out total ≠ hang := by
  intro fuel
  induction fuel with
  | zero => intro src out total h1 h2; omega
  | succ fuel ih =>
    intro src out total hs hf
    cases hc : mem[src]? with
    | none => simp [copy_none hc]
    | some c =>
    rcases byte_cases c with rfl | ⟨h1, h2⟩ | ⟨h1, h2⟩ | h1
    · rw [copy_zero hc]; split <;> simp
    · rw [copy_label hc h1 h2]
      split_ifs <;> try simp
      exact ih _ _ _ (by omega) (by omega)
    · simp [copy_bad hc h1]
    · simp [copy_bad hc (show 63 < c.toNat by omega)]

theorem copyLoop_complete {cap mem eop} (hcap : 255 ≤ cap) : ∀ n src fuel out total,
    (∀ l ∈ n, LabelOK l) → wire n <+: (mem.take (eop + 1)).drop src → total = out.length →
    total + (wire n).length ≤ 255 → eop - src < fuel →
    copyLoop cap mem eop fuel src out total = ok (out ++ wire n, total + (wire n).length) := by
  intro n
  induction n with
  | nil =>
    intro src fuel out total _ hst ht hw hf
    rw [stored_nil] at hst
    have := getElem?_some_lt hst
    rw [getElem?_take_lt (by simp at this; omega)] at hst
    obtain ⟨f, rfl⟩ : ∃ f, fuel = f + 1 := ⟨fuel - 1, by omega⟩
    simp only [wire, List.length_singleton] at hw
    rw [copy_zero hst, if_pos (by omega)]; simp [wire]
  | cons l n ih =>
    intro src fuel out total hok hst ht hw hf
    obtain ⟨h1, h2, h3⟩ := stored_cons.mp hst
    have hl := hok l (by simp)
    have e := ofNat_label_toNat hl
    have hlen := prefix_drop_length h3 (wire_ne_nil n)
    have hwp := wire_length_pos n
    simp only [List.length_take] at hlen
    rw [getElem?_take_lt (by omega)] at h1
    obtain ⟨f, rfl⟩ : ∃ f, fuel = f + 1 := ⟨fuel - 1, by omega⟩
    have h2' := prefix_drop_iff.mp h2
    rw [List.drop_take, List.take_take, Nat.min_eq_left (by omega)] at h2'
    rw [wire_cons_length] at hw
    have := hl.1
    rw [copy_label h1 (by omega) (by rw [e]; exact hl.2), e, h2', if_neg (by omega), if_neg (by omega),
      if_neg (by omega), if_neg (by omega), if_neg (by omega), if_neg (by omega),
      ih _ _ _ _ (fun l hm => hok l (by simp [hm])) h3 (by simp; omega) (by omega) (by omega)]
    simp [wire]; omega

theorem copyLoop_safe {cap mem eop} (hcap : 255 ≤ cap) (hm : eop < mem.length) :
    ∀ fuel src out total, total = out.length → total ≤ 254 → src ≤ eop →
    copyLoop cap mem eop fuel src out total ≠ ub := by
  intro fuel
  induction fuel with
  | zero => intro src out total _ _ _; simp [copyLoop]
  | succ fuel ih =>
    intro src out total ht h254 hs
    cases hc : mem[src]? with
    | none => simp at hc; omega
    | some c =>
    rcases byte_cases c with rfl | ⟨h1, h2⟩ | ⟨h1, h2⟩ | h1
    · rw [copy_zero hc, if_pos (by omega)]; simp
    · rw [copy_label hc h1 h2]
      split_ifs <;> first | (exfalso; omega) | simp | skip
      have hl := take_drop_length mem (src + 1) c.toNat (by omega)
      exact ih _ _ _ (by simp [hl]; omega) (by omega) (by omega)
    · simp [copy_bad hc h1]
    · simp [copy_bad hc (show 63 < c.toNat by omega)]

end Wdns
