import Verif.Lemmas.RbBalance

/-!
# Lemmas: the loop of `RB_INSERT_COLOR`
-/

namespace Wdns
open Outcome RbT

/-- Below a black element the loop ends. -/
theorem rbInsertLoop_stop {fuel : Nat} {m0 : Nat → Option RbEnt} {s : RbMem} {d p u} {c : List RbFrame} {t : RbT} {x h : Nat}
    (hs : RbHolds m0 s (⟨d, false, p, u⟩ :: c) t) (hx : t.ptr = some x) (ho : t.Ok h) {rd} (hc : CtxOk rd h (⟨d, false, p, u⟩ :: c)) :
    ∃ k, rbInsertLoop (fuel + 1) s (some x) = ok s ∧ (plug (⟨d, false, p, u⟩ :: c) t).Ok k := by
  have e2 := hs.ctx.1
  have hb := ctxOk_black.mp hc
  obtain ⟨k, hk⟩ := plug_ok (c := c) (ok_black_succ (d := d) (i := p).mpr ⟨ho, hb.1⟩) (by simpa using hb.2)
  refine ⟨k, ?_, hk.1⟩
  obtain ⟨tr, ta, tx, tb, rfl⟩ := exists_mk true (t := t) (by rintro rfl; cases hx)
  simp only [ptr_mk, Option.some.injEq] at hx
  subst hx
  have e1 := holds_get hs
  simp only [rbInsertLoop, rb_get e1, ok_bind, RbEnt.of_parent, topOf, reduceCtorEq, if_false, rb_get e2, RbEnt.of_red, if_true]

theorem rbInsertLoop_spec : ∀ (fuel : Nat) {m0 : Nat → Option RbEnt} {s : RbMem} {c : List RbFrame} {t : RbT} {x h : Nat}, RbHolds m0 s c t → t.ptr = some x → t.isRed = true →
    t.Ok h → CtxOk false h c → c.length < 2 * fuel →
    ∃ s' t' k, rbInsertLoop fuel s (some x) = ok s' ∧ RbHolds m0 s' [] t' ∧ t'.inorder = (plug c t).inorder ∧ t'.Ok k
  | 0, _, _, _, _, _, _, _, _, _, _, _, hf => by omega
  | fuel + 1, m0, s, c, t, x, h, hs, hx, hr, ho, hc, hf => by
    obtain ⟨tr, ta, tx, tb, rfl⟩ := exists_mk true (t := t) (by rintro rfl; cases hx)
    simp only [ptr_mk, Option.some.injEq] at hx
    subst hx
    simp only [isRed_mk] at hr
    subst hr
    have e1 := holds_get hs
    match c, hc, hf, hs, e1 with
    | [], _, _, hs, e1 =>
      refine ⟨s, _, h, ?_, hs, rfl, ho⟩
      simp [rbInsertLoop, rb_get e1, topOf]
    | ⟨d1, false, p, u1⟩ :: c, hc, _, hs, e1 =>
      obtain ⟨k, h1, h2⟩ := rbInsertLoop_stop (fuel := fuel) hs (ptr_mk ..) ho hc
      exact ⟨s, _, k, h1, holds_root.mp hs, rfl, h2⟩
    | [⟨d1, true, p, u1⟩], hc, _, _, _ => exact absurd (ctxOk_red.mp hc).2.2.2 (by simp [CtxOk])
    | ⟨d1, true, p, u1⟩ :: ⟨d2, true, g, u2⟩ :: c, hc, _, _, _ => exact absurd (ctxOk_red.mp (ctxOk_red.mp hc).2.2.2).2.1 (by simp)
    | ⟨d1, true, p, u1⟩ :: ⟨d2, false, g, u2⟩ :: c, hc, hf, hs, e1 =>
      obtain ⟨o1, _, b1, hcr⟩ := ctxOk_red.mp hc
      obtain ⟨o2, hcb⟩ := ctxOk_black.mp hcr
      have e1 : s.ent tx = some (.of true ta.ptr tb.ptr (some p) true) := e1
      have e2 : s.ent p = some (.of d1 (some tx) u1.ptr (some g) true) := hs.ctx.1
      have e3 : s.ent g = some (.of d2 (some p) u2.ptr (topOf c) false) := hs.ctx.2.2.1
      have hs2 := holds_plug.mp hs
      have hd2 : decide (some p = (RbEnt.of d2 (some p) u2.ptr (topOf c) false).left) = d2 :=
        side_eq (by simpa using holds_apart hs2 (.inl (by cases d1 <;> simp [RbT.mk])))
      have hloop : rbInsertLoop (fuel + 1) s (some tx) = (rbInsertStep s d2 (some p) (some g) (some tx) >>= fun r => rbInsertLoop fuel r.1 r.2) := by
        simp only [rbInsertLoop, rb_get e1, ok_bind, RbEnt.of_parent, reduceCtorEq, if_false, rb_get e2, RbEnt.of_red, Bool.true_eq_false, rb_get e3, hd2]
      rw [hloop]
      have hu := isRed_eq (holds_sib.mp hs2)
      cases hur : u2.isRed with
      | true =>
        rw [hur] at hu
        obtain ⟨ur, ua, ui, ub, rfl⟩ := exists_mk true (t := u2) (by rintro rfl; cases hur)
        simp only [isRed_mk] at hur
        subst hur
        obtain ⟨s1, q1, h1⟩ := setRed_mk (v := false) (holds_sib.mp hs2)
        obtain ⟨s2, q2, h2⟩ := setRed_mk (v := false) (holds_sib.mpr h1)
        obtain ⟨s3, q3, h3⟩ := setRed_mk (v := true) (holds_plug.mp h2)
        have h3 : RbHolds m0 s3 c (.mk d2 true (.mk d1 false (.mk true true ta tx tb) p u1) g (.mk true false ua ui ub)) := h3
        rw [ptr_mk] at hu e3
        have hstep : rbInsertStep s d2 (some p) (some g) (some tx) = ok (s3, some g) := by
          simp only [rbInsertStep, rb_get e3, ok_bind, RbEnt.of_other, hu, if_true, q1, q2, q3]
        rw [hstep, ok_bind]
        have oku := ok_red.mp o2
        obtain ⟨s', t', k, q, h4, h5, h6⟩ := rbInsertLoop_spec fuel (h := h + 1) h3 (ptr_mk ..) (isRed_mk ..)
          (ok_red.mpr ⟨by simp, by simp, ok_black_succ.mpr ⟨ho, o1⟩, ok_black_succ.mpr oku.2.2⟩) hcb (by simp only [List.length_cons] at hf; omega)
        refine ⟨s', t', k, q, h4, ?_, h6⟩
        rw [h5]
        refine plug_inorder (inorder_eq_of_ord (d := d2) ?_)
        simp only [ord_mk]
        rw [show ord d2 (mk d1 false (mk true true ta tx tb) p u1) = ord d2 (mk d1 true (mk true true ta tx tb) p u1) by cases d1 <;> cases d2 <;> rfl]
        rw [show ord d2 (mk true false ua ui ub) = ord d2 (mk true true ua ui ub) by cases d2 <;> rfl]
      | false =>
        rw [hur] at hu
        -- the inner grandchild
        have hinner : ∃ s1 q A y B, rbInner s d2 (some p) (some tx) = ok (s1, some q, some y) ∧ RbHolds m0 s1 (⟨d2, false, g, u2⟩ :: c) (.mk d2 true A q B) ∧
            A.ptr = some y ∧ A.isRed = true ∧ A.Ok h ∧ B.isRed = false ∧ B.Ok h ∧ ord d2 (.mk d2 true A q B) = ord d2 (.mk d1 true (.mk true true ta tx tb) p u1) := by
          by_cases hd : d1 = d2
          · subst hd
            refine ⟨s, p, .mk true true ta tx tb, tx, u1, ?_, hs2, ptr_mk .., isRed_mk .., ho, b1, o1, rfl⟩
            have hne := holds_apart hs (.inl (by simp [RbT.mk]))
            simp only [ptr_mk] at hne
            rw [rbInner, rb_get e2, ok_bind, RbEnt.of_other, if_neg (fun e : u1.ptr = some tx => hne e.symm)]
          · have hd' : d1 = !d2 := by revert hd; cases d1 <;> cases d2 <;> decide
            subst hd'
            obtain ⟨tr, a, x, b, ht⟩ := exists_mk d2 (t := .mk true true ta tx tb) (by simp [RbT.mk])
            have hx : x = tx := by have := congrArg ptr ht; simp only [ptr_mk, Option.some.injEq] at this; exact this.symm
            have htr : tr = true := by have := congrArg isRed ht; simp only [isRed_mk] at this; exact this.symm
            subst hx htr
            rw [ht] at hs2 ho ⊢
            simp only at hs2
            rw [mk_swap] at hs2 ⊢
            obtain ⟨s1, q1, h1⟩ := rotate_holds hs2
            have okt := ok_red.mp ho
            refine ⟨s1, x, .mk d2 true u1 p a, p, b, ?_, h1, ptr_mk .., isRed_mk .., ok_red.mpr ⟨b1, okt.1, o1, okt.2.2.1⟩, okt.2.1, okt.2.2.2, by simp [ord_mk]⟩
            rw [RbEnt.of_swap] at e2
            simp only [rbInner, rb_get e2, ok_bind, RbEnt.of_other, if_true, q1]
        obtain ⟨s1, q, A, y, B, i1, h1, i3, i4, i5, i6, i7, i8⟩ := hinner
        obtain ⟨s2, q2, h2⟩ := setRed_mk (v := false) h1
        obtain ⟨s3, q3, h3⟩ := setRed_mk (v := true) (holds_plug.mp h2)
        simp only at h3
        rw [← mk_swap d2, ← mk_swap d2] at h3
        obtain ⟨s4, q4, h4⟩ := rotate_holds h3
        rw [mk_swap, mk_swap] at h4
        have hstep : rbInsertStep s d2 (some p) (some g) (some tx) = ok (s4, some y) := by
          simp only [rbInsertStep, rb_get e3, ok_bind, RbEnt.of_other, hu, Bool.false_eq_true, if_false, i1, q2, q3, q4]
        rw [hstep, ok_bind]
        have h5 := holds_plug (f := ⟨d2, false, q, .mk d2 true B g u2⟩).mpr h4
        obtain ⟨fuel, rfl⟩ : ∃ n, fuel = n + 1 := ⟨fuel - 1, by simp only [List.length_cons] at hf; omega⟩
        obtain ⟨k, h7, h8⟩ := rbInsertLoop_stop (fuel := fuel) (rd := false) h5 i3 i5 (ctxOk_black.mpr ⟨ok_red.mpr ⟨i6, hur, i7, o2⟩, hcb⟩)
        refine ⟨s4, _, k, h7, holds_root.mp h5, ?_, h8⟩
        refine plug_inorder (c := c) (inorder_eq_of_ord (d := d2) ?_)
        rw [ord_mk] at i8
        simp only [ord_mk] at i8 ⊢
        rw [← i8]
        simp

end Wdns
