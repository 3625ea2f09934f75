import Verif.Lemmas.RbBalance

/-!
# Lemmas: the loop of `RB_REMOVE_COLOR`
-/

namespace Wdns
open Outcome RbT

theorem ok_ne_leaf {h : Nat} {t : RbT} (h1 : t.Ok (h + 1)) : t ≠ leaf := by rintro rfl; cases h1

/-- A black tree, with its children. -/
theorem black_parts (d : Bool) {h : Nat} {t : RbT} (h1 : t.Ok (h + 1)) (h2 : t.isRed = false) : ∃ a i b, t = .mk d false a i b ∧ a.Ok h ∧ b.Ok h := by
  obtain ⟨red, a, i, b, rfl⟩ := exists_mk d (ok_ne_leaf h1)
  simp only [isRed_mk] at h2
  subst h2
  exact ⟨a, i, b, rfl, ok_black_succ.mp h1⟩

/-- After the case of the red sibling, the sibling is black. -/
theorem rbRedSibling_spec {m0 s d red p sib c h} {t : RbT} (hs : RbHolds m0 s (⟨d, red, p, sib⟩ :: c) t) (hc : CtxOk false (h + 1) (⟨d, red, p, sib⟩ :: c)) :
    ∃ s' red' sib' c', rbRedSibling s d (some p) sib.ptr = ok (s', sib'.ptr) ∧ RbHolds m0 s' (⟨d, red', p, sib'⟩ :: c') t ∧
      CtxOk false (h + 1) (⟨d, red', p, sib'⟩ :: c') ∧ sib'.isRed = false ∧ (∀ u, (plug (⟨d, red', p, sib'⟩ :: c') u).inorder = (plug (⟨d, red, p, sib⟩ :: c) u).inorder) ∧
      (c' = c ∨ red' = true) := by
  have ho : sib.Ok (h + 1) := hc.1
  obtain ⟨sr, a, i, b, rfl⟩ := exists_mk d (ok_ne_leaf ho)
  have e := holds_get (holds_sib.mp hs)
  cases sr with
  | false =>
    refine ⟨s, red, .mk d false a i b, c, ?_, hs, hc, isRed_mk .., fun _ => rfl, .inl rfl⟩
    simp only [rbRedSibling, ptr_mk, rb_get e, ok_bind, RbEnt.of_red, Bool.false_eq_true, if_false]
  | true =>
    cases red with
    | true => exact absurd (ctxOk_red.mp hc).2.2.1 (by simp)
    | false =>
      obtain ⟨h1, h2⟩ := ctxOk_black.mp hc
      obtain ⟨b1, b2, o1, o2⟩ := ok_red.mp h1
      obtain ⟨s1, q1, g1⟩ := setRed_mk (v := false) (holds_sib.mp hs)
      obtain ⟨s2, q2, g2⟩ := setRed_mk (v := true) (holds_plug.mp (holds_sib.mpr g1))
      obtain ⟨s3, q3, g3⟩ := rotate_holds g2
      have g4 : RbHolds m0 s3 (⟨d, true, p, a⟩ :: ⟨d, false, i, b⟩ :: c) t := holds_plug.mpr (holds_plug.mpr g3)
      refine ⟨s3, true, a, ⟨d, false, i, b⟩ :: c, ?_, g4, ctxOk_red.mpr ⟨o1, rfl, b1, ctxOk_black.mpr ⟨o2, h2⟩⟩, b1, ?_, .inr rfl⟩
      · have e5 := g4.ctx.1
        simp only at q2 q3
        simp only [rbRedSibling, ptr_mk, rb_get e, ok_bind, RbEnt.of_red, if_true, q1, q2, q3, rb_get e5, RbEnt.of_other]
      · intro u
        refine plug_inorder (c := c) (inorder_eq_of_ord (d := d) ?_)
        simp [ord_mk]

/-- After the case of the black outer child, the outer child is red. -/
theorem rbOuter_spec {m0 s d red p a i b c h} {t : RbT} (hs : RbHolds m0 s (⟨d, red, p, .mk d false a i b⟩ :: c) t) (oa : a.Ok h) (ob : b.Ok h)
    (hr : a.isRed = true ∨ b.isRed = true) :
    ∃ s' a' i' b', rbOuter s d (some p) (some i) = ok (s', some i') ∧ RbHolds m0 s' (⟨d, red, p, .mk d false a' i' b'⟩ :: c) t ∧ a'.Ok h ∧ b'.Ok h ∧ b'.isRed = true ∧
      ord d (.mk d false a' i' b') = ord d (.mk d false a i b) := by
  have hs1 := holds_sib.mp hs
  have e := holds_get hs1
  have hb := isBlack_eq (holds_sib.mp (holds_plug (f := ⟨d, false, i, b⟩).mpr hs1))
  cases hbr : b.isRed with
  | true =>
    rw [hbr] at hb
    refine ⟨s, a, i, b, ?_, hs, oa, ob, hbr, rfl⟩
    simp only [rbOuter, rb_get e, ok_bind, RbEnt.of_other, hb, Bool.not_true, Bool.false_eq_true, if_false]
  | false =>
    rw [hbr] at hb
    have har : a.isRed = true := by rcases hr with h | h <;> simp_all
    obtain ⟨s1, q1, g1⟩ := blacken_holds (holds_plug (f := ⟨d, false, i, b⟩).mpr hs1)
    obtain ⟨s2, q2, g2⟩ := setRed_mk (v := true) (holds_plug.mp g1)
    obtain ⟨ar, a1, ai, a2, rfl⟩ := exists_mk d (t := a) (by rintro rfl; cases har)
    simp only [isRed_mk] at har
    subst har
    simp only [black_mk] at g2
    rw [← mk_swap d, ← mk_swap d] at g2
    obtain ⟨s3, q3, g3⟩ := rotate_holds g2
    rw [mk_swap, mk_swap] at g3
    have g4 : RbHolds m0 s3 (⟨d, red, p, .mk d false a1 ai (.mk d true a2 i b)⟩ :: c) t := holds_sib.mpr g3
    obtain ⟨b1, b2, o1, o2⟩ := ok_red.mp oa
    refine ⟨s3, a1, ai, .mk d true a2 i b, ?_, g4, o1, ok_red.mpr ⟨b2, hbr, o2, ob⟩, isRed_mk .., by simp [ord_mk]⟩
    have e5 := g4.ctx.1
    simp only at q2 q3
    rw [ptr_mk] at q1
    simp only [rbOuter, rb_get e, ok_bind, RbEnt.of_other, RbEnt.of_child, hb, Bool.not_false, if_true, q1, q2, q3, rb_get e5, ptr_mk]

/-- The last case mends the tree. -/
theorem rbLast_spec {m0 s d red p a i b c h} {t : RbT} (hs : RbHolds m0 s (⟨d, red, p, .mk d false a i b⟩ :: c) t) (oa : a.Ok h) (ob : b.Ok h)
    (hr : a.isRed = true ∨ b.isRed = true) (ot : t.Ok h) :
    ∃ s' T, rbLast s d (some p) (some i) = ok s' ∧ RbHolds m0 s' c T ∧ T.isRed = red ∧ T.Ok (if red then h + 1 else h + 2) ∧
      ord d T = ord d (.mk d red t p (.mk d false a i b)) := by
  obtain ⟨s1, a, i', b, q1, h1, oa, ob, hb, hord⟩ := rbOuter_spec hs oa ob hr
  have hp := h1.ctx.1
  obtain ⟨s2, q2, h2⟩ := setRed_mk (v := red) (holds_sib.mp h1)
  obtain ⟨s3, q3, h3⟩ := setRed_mk (v := false) (holds_plug.mp (holds_sib.mpr h2))
  have h4 : RbHolds m0 s3 (⟨d, false, p, .mk d red a i' b⟩ :: c) t := holds_plug.mpr h3
  have e4 := holds_get (holds_sib.mp h4)
  obtain ⟨s5, q5, h5⟩ := blacken_holds (holds_sib.mp (holds_plug (f := ⟨d, red, i', b⟩).mpr (holds_sib.mp h4)))
  have h6 : RbHolds m0 s5 c (.mk d false t p (.mk d red a i' b.black)) := holds_plug.mp (holds_sib.mpr (holds_plug.mp (holds_sib.mpr h5)))
  obtain ⟨s7, q7, h7⟩ := rotate_holds h6
  refine ⟨s7, _, ?_, h7, isRed_mk .., ?_, ?_⟩
  · simp only at q3
    simp only [rbLast, q1, ok_bind, rb_get hp, RbEnt.of_red, q2, q3, rb_get e4, RbEnt.of_other, q5, q7]
  · cases red with
    | true => exact ok_red.mpr ⟨isRed_mk .., black_isRed _, ok_black_succ.mpr ⟨ot, oa⟩, black_ok_red ob hb⟩
    | false => exact ok_black_succ.mpr ⟨ok_black_succ.mpr ⟨ot, oa⟩, black_ok_red ob hb⟩
  · rw [ord_mk, ord_mk, ord_mk, ← hord, ord_mk]
    have : ord d b.black = ord d b := by cases b <;> cases d <;> rfl
    rw [this]
    simp

/-- The root is an element of the context, if there is one. -/
theorem repC_root {m root} : ∀ {c : List RbFrame} {p}, RepC m root c p → c ≠ [] → ∃ i ∈ cids c, root = some i
  | [], _, _, h => absurd rfl h
  | [f], _, ⟨_, _, h⟩, _ => ⟨f.i, by simp [cids], h⟩
  | f :: g :: c, _, ⟨_, _, h⟩, _ => by
    obtain ⟨i, hi, e⟩ := repC_root h (by simp)
    exact ⟨i, by rw [cids]; simp [hi], e⟩

/-- `RB_REMOVE_COLOR` on a tree that is one black node short in the hole. -/
theorem rbRemoveColor_spec : ∀ (fuel : Nat) {m0 : Nat → Option RbEnt} {s : RbMem} {c : List RbFrame} {t : RbT} {h : Nat}, RbHolds m0 s c t →
    (t.isRed = false → t.Ok h) → (t.isRed = true → t.black.Ok (h + 1)) → CtxOk false (h + 1) c → (if t.isRed then 0 else c.length) + 1 < fuel →
    ∃ s' t' k, rbRemoveColor fuel s (topOf c) t.ptr = ok s' ∧ RbHolds m0 s' [] t' ∧ t'.inorder = (plug c t).inorder ∧ t'.Ok k ∧ t'.isRed = false
  | 0, _, _, _, _, _, _, _, _, _, hf => by omega
  | fuel + 1, m0, s, c, t, h, hs, ho, hr, hc, hf => by
    have hb := isBlack_eq hs
    cases htr : t.isRed with
    | true =>
      rw [htr] at hb
      obtain ⟨s', q, g⟩ := blacken_holds hs
      obtain ⟨k, g1, g2⟩ := plug_ok (hr htr) (by simpa using hc)
      refine ⟨s', _, k, ?_, holds_root.mp g, plug_inorder (black_inorder t), g1, g2⟩
      simp only [rbRemoveColor, rbRemoveLoop, hb, ok_bind, Bool.not_true, Bool.false_eq_true, false_and, if_false, q]
    | false =>
      rw [htr] at hb
      have ho := ho htr
      match c, hs, hc, hf with
      | [], hs, hc, hf =>
        obtain ⟨s', q, g⟩ := blacken_holds hs
        refine ⟨s', _, h, ?_, g, black_inorder t, by rw [black_of_black htr]; exact ho, black_isRed _⟩
        have hroot : s.root = t.ptr := hs.ctx
        simp only [rbRemoveColor, rbRemoveLoop, hb, ok_bind, hroot, ne_eq, not_true_eq_false, and_false, if_false, q]
      | ⟨d, red, p, sib⟩ :: c, hs, hc, hf =>
        rw [if_neg (by simp [htr])] at hf
        simp only [List.length_cons] at hf
        have hne : t.ptr ≠ s.root := by
          intro e
          obtain ⟨i, hi, e'⟩ := repC_root hs.ctx (by simp)
          exact (List.nodup_append.mp hs.nodup).2.2 i hi i (ptr_mem (e.trans e')) rfl
        have hp := hs.ctx.1
        have hd : decide ((RbEnt.of d t.ptr sib.ptr (topOf c) red).left = t.ptr) = d := by
          have h1 := holds_apart hs (.inr (ok_ne_leaf hc.1))
          cases d
          · simp only [RbEnt.of, Bool.false_eq_true, if_false, decide_eq_false_iff_not]
            exact fun h => h1 h.symm
          · simp [RbEnt.of]
        obtain ⟨s1, red', sib', c', q1, g1, hc1, hb1, hin1, hcase⟩ := rbRedSibling_spec hs hc
        obtain ⟨a, i, b, rfl, oa, ob⟩ := black_parts d hc1.1 hb1
        have e1 := holds_get (holds_sib.mp g1)
        have hfa := holds_plug (f := ⟨d, false, i, b⟩).mpr (holds_sib.mp g1)
        have ba := isBlack_eq hfa
        have bb := isBlack_eq (holds_sib.mp hfa)
        have hbb : rbBothBlack s1 (.of d a.ptr b.ptr (some p) false) = ok (!a.isRed && !b.isRed) := by
          cases d
          · simp only [rbBothBlack, RbEnt.of, Bool.false_eq_true, if_false, bb, ok_bind, ba]
            cases b.isRed <;> simp
          · simp only [rbBothBlack, RbEnt.of, if_true, bb, ok_bind, ba]
            cases a.isRed <;> simp
        rw [ptr_mk] at q1
        have e1 : s1.ent i = some (.of d a.ptr b.ptr (some p) false) := e1
        have hloop : rbRemoveColor (fuel + 1) s (topOf (⟨d, red, p, sib⟩ :: c)) t.ptr = (rbRemoveStep s d (some p) >>= fun r =>
            if r.2.2.2 then r.1.blacken r.2.2.1 else rbRemoveColor fuel r.1 r.2.1 r.2.2.1) := by
          simp only [rbRemoveColor, rbRemoveLoop, hb, ok_bind, topOf, Bool.not_false, true_and, ne_eq, hne, not_false_eq_true, if_true]
          rw [rb_get hp, ok_bind, hd]
          cases hq : rbRemoveStep s d (some p) with
          | ok r =>
            simp only [ok_bind]
            cases r.2.2.2 <;> simp
          | err r => simp only [err_bind]
          | ub => simp only [ub_bind]
          | hang => simp only [hang_bind]
          | abort => simp only [abort_bind]
        rw [hloop]
        by_cases hab : a.isRed = false ∧ b.isRed = false
        · obtain ⟨s2, q2, g2⟩ := setRed_mk (v := true) (holds_sib.mp g1)
          have g3 := holds_sib.mpr g2
          have hp3 := g3.ctx.1
          have g4 : RbHolds m0 s2 c' (.mk d red' t p (.mk d true a i b)) := holds_plug.mp g3
          have hstep : rbRemoveStep s d (some p) = ok (s2, topOf c', some p, false) := by
            simp only [rbRemoveStep, rb_get hp, ok_bind, RbEnt.of_other, q1, rb_get e1, hbb, hab.1, hab.2, Bool.not_false, Bool.and_self, if_true, q2, rb_get hp3,
              RbEnt.of_parent]
          rw [hstep, ok_bind]
          simp only [Bool.false_eq_true, if_false]
          have hmk : (mk d red' t p (.mk d true a i b)).ptr = some p := ptr_mk ..
          rw [← hmk]
          have hsibOk : (mk d true a i b).Ok h := ok_red.mpr ⟨hab.1, hab.2, oa, ob⟩
          have hres : ∀ {h'}, (red' = false → (mk d red' t p (.mk d true a i b)).Ok h') → (red' = true → (mk d false t p (.mk d true a i b)).Ok (h' + 1)) →
              CtxOk false (h' + 1) c' →
              ∃ s' t' k, rbRemoveColor fuel s2 (topOf c') (mk d red' t p (.mk d true a i b)).ptr = ok s' ∧ RbHolds m0 s' [] t' ∧
                t'.inorder = (plug (⟨d, red, p, sib⟩ :: c) t).inorder ∧ t'.Ok k ∧ t'.isRed = false := by
            intro h' k1 k2 k3
            obtain ⟨s', t', k, z1, z2, z3, z4, z5⟩ := rbRemoveColor_spec fuel g4 (by simpa using k1) (by simpa using k2) k3 (by
              rw [isRed_mk]
              rcases hcase with rfl | rfl
              · split <;> omega
              · simp only [if_true]; omega)
            refine ⟨s', t', k, z1, z2, ?_, z4, z5⟩
            rw [z3, ← hin1]
            refine plug_inorder (c := c') (inorder_eq_of_ord (d := d) ?_)
            simp [ord_mk]
          cases red' with
          | true =>
            obtain ⟨_, _, _, h3⟩ := ctxOk_red.mp hc1
            exact hres (h' := h) (by simp) (fun _ => ok_black_succ.mpr ⟨ho, hsibOk⟩) (ctxOk_weaken h3)
          | false =>
            obtain ⟨_, h3⟩ := ctxOk_black.mp hc1
            exact hres (h' := h + 1) (fun _ => ok_black_succ.mpr ⟨ho, hsibOk⟩) (by simp) h3
        · obtain ⟨s2, T, q2, g2, hT, oT, ordT⟩ := rbLast_spec g1 oa ob (by
            cases ha : a.isRed <;> cases hb : b.isRed <;> simp_all) ho
          have hstep : rbRemoveStep s d (some p) = ok (s2, some p, s2.root, true) := by
            simp only [rbRemoveStep, rb_get hp, ok_bind, RbEnt.of_other, q1, rb_get e1, hbb]
            rw [if_neg (by cases ha : a.isRed <;> cases hb : b.isRed <;> simp_all)]
            simp only [q2, ok_bind]
          rw [hstep, ok_bind]
          simp only [if_true]
          obtain ⟨k, o1, o2⟩ : ∃ k, (plug c' T).Ok k ∧ (plug c' T).isRed = false := by
            cases red' with
            | true => exact plug_ok oT (by rw [hT]; exact (ctxOk_red.mp hc1).2.2.2)
            | false => exact plug_ok oT (by rw [hT]; exact (ctxOk_black.mp hc1).2)
          have g3 := holds_root.mp g2
          obtain ⟨s3, q3, g4⟩ := blacken_holds g3
          refine ⟨s3, _, k, ?_, g4, ?_, by rw [black_of_black o2]; exact o1, black_isRed _⟩
          · have : s2.root = (plug c' T).ptr := g3.ctx
            rw [this, q3]
          · rw [black_inorder, ← hin1]
            exact plug_inorder (c := c') (inorder_eq_of_ord (d := d) ordT)

end Wdns
