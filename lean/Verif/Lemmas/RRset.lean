import Verif.Spec.RRset
import Verif.Lemmas.NameOps
import Verif.Tac

/-!
# Lemmas about RRset operations
-/

namespace Wdns
open Outcome Spec

theorem CName.bytes_length {n : CName} (h : n.Valid) : n.bytes.length = n.len := by
  simp only [CName.Valid] at h; simp [CName.bytes]; omega

theorem CRdata.bytes_length {n : CRdata} (h : n.Valid) : n.bytes.length = n.len := by
  simp only [CRdata.Valid] at h; simp [CRdata.bytes]; omega

theorem rdN_name {n : CName} (h : n.Valid) : rdN n.data 0 n.len = ok n.bytes := by
  rw [rdN_ok (by rw [Nat.zero_add]; exact h)]; rfl

theorem rdN_rdata {n : CRdata} (h : n.Valid) : rdN n.data 0 n.len = ok n.bytes := by
  rw [rdN_ok (by rw [Nat.zero_add]; exact h)]; rfl

theorem compare_spec {rr : RR} {s : RRset} (h1 : rr.name.Valid) (h2 : s.name.Valid) :
    compareRrRrset rr s = ok (decide (rr.key = s.key)) := by
  unfold compareRrRrset
  by_cases h : rr.name.len = s.name.len ∧ rr.rrtype = s.rrtype ∧ rr.rrclass = s.rrclass
  · rw [if_pos h, rdN_name h1, ok_bind]
    have e1 : downcaseBytes rr.name.len rr.name.bytes = ok (rr.name.bytes.map lower) := by
      have := CName.bytes_length h1
      rw [downcaseBytes_spec _ _ (by omega), ← this]; simp
    have e2 : downcaseBytes s.name.len s.name.bytes = ok (s.name.bytes.map lower) := by
      have := CName.bytes_length h2
      rw [downcaseBytes_spec _ _ (by omega), ← this]; simp
    simp only [downcaseName, e1, ok_bind, rdN_name h2, e2, RR.key, RRset.key, h.2.1, h.2.2,
      Prod.mk.injEq, true_and]
  · rw [if_neg h]
    congr 1
    symm
    rw [decide_eq_false_iff_not]
    intro e
    simp only [RR.key, RRset.key, Prod.mk.injEq] at e
    apply h
    refine ⟨?_, e.1, e.2.1⟩
    have := congrArg List.length e.2.2
    simp only [List.length_map, CName.bytes_length h1, CName.bytes_length h2] at this
    exact this

/-! ### memcmp -/

theorem memcmp_le_iff : ∀ (a b : List UInt8), a.length = b.length →
    (memcmp a b ≤ 0 ↔ a = b ∨ ∃ (p : List UInt8) (x y : UInt8) (s t : List UInt8),
      a = p ++ x :: s ∧ b = p ++ y :: t ∧ x.toNat < y.toNat) := by
  intro a
  induction a with
  | nil => intro b h; cases b <;> simp_all [memcmp]
  | cons x a ih =>
    intro b h
    cases b with
    | nil => simp at h
    | cons y b =>
      simp only [List.length_cons, Nat.add_right_cancel_iff] at h
      simp only [memcmp]
      by_cases h1 : x.toNat < y.toNat
      · simp only [h1, if_true]
        exact ⟨fun _ => .inr ⟨[], x, y, a, b, rfl, rfl, h1⟩, fun _ => by decide⟩
      · simp only [h1, if_false]
        by_cases h2 : y.toNat < x.toNat
        · simp only [h2, if_true]
          constructor
          · intro h; exact absurd h (by decide)
          · rintro (e | ⟨p, x', y', s, t, e1, e2, e3⟩)
            · simp only [List.cons.injEq] at e; rw [e.1] at h2; omega
            · cases p with
              | nil =>
                simp only [List.nil_append, List.cons.injEq] at e1 e2
                rw [e1.1, e2.1] at h1; exact absurd e3 h1
              | cons z p =>
                simp only [List.cons_append, List.cons.injEq] at e1 e2
                rw [e1.1, e2.1] at h2; omega
        · have hxy : x = y := UInt8.toNat_inj.mp (by omega)
          subst hxy
          simp only [h2, if_false]
          rw [ih b h]
          constructor
          · rintro (rfl | ⟨p, x', y', s, t, e1, e2, e3⟩)
            · exact .inl rfl
            · exact .inr ⟨x :: p, x', y', s, t, by simp [e1], by simp [e2], e3⟩
          · rintro (e | ⟨p, x', y', s, t, e1, e2, e3⟩)
            · simp only [List.cons.injEq, true_and] at e; exact .inl e
            · cases p with
              | nil =>
                simp only [List.nil_append, List.cons.injEq] at e1 e2
                rw [← e1.1, ← e2.1] at e3; omega
              | cons z p =>
                simp only [List.cons_append, List.cons.injEq] at e1 e2
                exact .inr ⟨p, x', y', s, t, e1.2, e2.2, e3⟩

theorem rdataCmp_le {a b : CRdata} (ha : a.Valid) (hb : b.Valid) :
    (∃ i, rdataCmp a b = ok i ∧ i ≤ 0) ↔ RdataLe a.bytes b.bytes := by
  have la := CRdata.bytes_length ha
  have lb := CRdata.bytes_length hb
  unfold rdataCmp RdataLe
  rw [la, lb]
  by_cases h1 : a.len < b.len
  · simp [h1]
  · by_cases h2 : a.len > b.len
    · simp only [h1, h2, if_false, if_true]
      constructor
      · rintro ⟨i, e, h⟩; simp only [ok.injEq] at e; subst e; exact absurd h (by decide)
      · rintro (h | ⟨h, _⟩) <;> first | exact h.elim | omega
    · have e : a.len = b.len := by omega
      simp only [h1, h2, if_false]
      rw [rdN_rdata ha, ok_bind, e, rdN_rdata hb, ok_bind]
      simp only [ok.injEq, exists_eq_left', e, false_or, true_and]
      exact memcmp_le_iff _ _ (by omega)

theorem RdataLe.refl (a : List UInt8) : RdataLe a a := .inr ⟨rfl, .inl rfl⟩

theorem memcmp_swap : ∀ (a b : List UInt8), memcmp b a = - memcmp a b := by
  intro a
  induction a with
  | nil => intro b; cases b <;> simp [memcmp]
  | cons x a ih =>
    intro b
    cases b with
    | nil => simp [memcmp]
    | cons y b =>
      simp only [memcmp]
      split_ifs <;> first | omega | exact ih b

theorem memcmp_eq : ∀ (a b : List UInt8), a.length = b.length → memcmp a b = 0 → a = b := by
  intro a
  induction a with
  | nil => intro b h _; cases b <;> simp_all
  | cons x a ih =>
    intro b h e
    cases b with
    | nil => simp at h
    | cons y b =>
      simp only [List.length_cons, Nat.add_right_cancel_iff] at h
      simp only [memcmp] at e
      split_ifs at e
      · simp at e
      · rw [ih b h e, UInt8.toNat_inj.mp (show x.toNat = y.toNat by omega)]

theorem RdataLe.iff (a b : List UInt8) :
    RdataLe a b ↔ a.length < b.length ∨ (a.length = b.length ∧ memcmp a b ≤ 0) := by
  unfold RdataLe
  constructor
  · rintro (h | ⟨h, h'⟩)
    · exact .inl h
    · exact .inr ⟨h, (memcmp_le_iff a b h).mpr h'⟩
  · rintro (h | ⟨h, h'⟩)
    · exact .inl h
    · exact .inr ⟨h, (memcmp_le_iff a b h).mp h'⟩

theorem RdataLe.total (a b : List UInt8) : RdataLe a b ∨ RdataLe b a := by
  rw [RdataLe.iff, RdataLe.iff, memcmp_swap a b]
  omega

theorem RdataLe.antisymm {a b : List UInt8} (h1 : RdataLe a b) (h2 : RdataLe b a) : a = b := by
  rw [RdataLe.iff] at h1 h2
  rw [memcmp_swap a b] at h2
  exact memcmp_eq a b (by omega) (by omega)

theorem memcmp_trans : ∀ (a b c : List UInt8), a.length = b.length → b.length = c.length →
    memcmp a b ≤ 0 → memcmp b c ≤ 0 → memcmp a c ≤ 0 := by
  intro a
  induction a with
  | nil => intro b c _ _ _ _; simp [memcmp]
  | cons x a ih =>
    intro b c h1 h2 e1 e2
    cases b with
    | nil => simp at h1
    | cons y b =>
      cases c with
      | nil => simp at h2
      | cons z c =>
        simp only [List.length_cons, Nat.add_right_cancel_iff] at h1 h2
        simp only [memcmp] at e1 e2 ⊢
        split_ifs at e1 e2 ⊢ <;> first | omega | exact ih b c h1 h2 e1 e2

theorem RdataLe.trans {a b c : List UInt8} (h1 : RdataLe a b) (h2 : RdataLe b c) : RdataLe a c := by
  rw [RdataLe.iff] at h1 h2 ⊢
  rcases h1 with h1 | ⟨h1, e1⟩
  · omega
  · rcases h2 with h2 | ⟨h2, e2⟩
    · omega
    · exact .inr ⟨by omega, memcmp_trans a b c h1 h2 e1 e2⟩

end Wdns
