import Verif.Lemmas.RbOps
import Verif.Spec.RbTree

/-!
# Lemmas: insertion into red-black trees, and the calls that look something up
-/

namespace Wdns
open Outcome RbT

section cmp
variable {cmp : Nat → Nat → Int} (hc : Spec.Compares cmp)
include hc

theorem cmp_lt_of_lt_of_le {a b c} (h1 : cmp a b < 0) (h2 : cmp b c ≤ 0) : cmp a c < 0 := by
  by_cases h : cmp a c < 0
  · exact h
  · have h3 : ¬ 0 < cmp c a := fun hn => h ((hc.anti a c).mpr hn)
    have h4 := hc.trans b c a h2 (by omega)
    have := (hc.anti a b).mp h1
    omega

theorem cmp_lt_of_le_of_lt {a b c} (h1 : cmp a b ≤ 0) (h2 : cmp b c < 0) : cmp a c < 0 := by
  by_cases h : cmp a c < 0
  · exact h
  · have h3 : ¬ 0 < cmp c a := fun hn => h ((hc.anti a c).mpr hn)
    have h4 := hc.trans c a b (by omega) h1
    have := (hc.anti b c).mp h2
    omega

theorem cmp_self (a) : cmp a a = 0 := by
  have := hc.anti a a
  omega

end cmp

theorem sorted_node {cmp : Nat → Nat → Int} {red l i r} (h : Spec.Ascending cmp (node red l i r).inorder) :
    Spec.Ascending cmp l.inorder ∧ Spec.Ascending cmp r.inorder ∧ (∀ x ∈ l.inorder, cmp x i < 0) ∧ (∀ y ∈ r.inorder, cmp i y < 0) := by
  simp only [Spec.Ascending, inorder, List.pairwise_append, List.pairwise_cons, List.mem_cons] at h
  exact ⟨h.1, h.2.1.2, fun x hx => h.2.2 x hx i (.inl rfl), h.2.1.1⟩

theorem depth_plug : ∀ {c : List RbFrame} {t : RbT}, c.length + t.depth ≤ (plug c t).depth
  | [], t => by simp [plug]
  | f :: c, t => by
    have := depth_plug (c := c) (t := .mk f.d f.red t f.i f.sib)
    have h2 : t.depth + 1 ≤ (RbT.mk f.d f.red t f.i f.sib).depth := by cases hd : f.d <;> simp [RbT.mk, depth] <;> omega
    simp only [plug, List.length_cons] at this ⊢
    omega

/-- The way down of `RB_INSERT`. -/
theorem rbDescend_spec {cmp : Nat → Nat → Int} (hc : Spec.Compares cmp) {m0 s elm} : ∀ {t : RbT} {c : List RbFrame} {fuel comp}, RbHolds m0 s c t → Spec.Ascending cmp t.inorder →
    t.depth < fuel → (∀ f cs, c = f :: cs → decide (comp < 0) = f.d) →
    (∃ x ∈ t.inorder, cmp elm x = 0 ∧ rbDescend cmp s elm fuel t.ptr (topOf c) comp = ok (some x, some x, 0)) ∨
    (∃ c' comp' xs ys, rbDescend cmp s elm fuel t.ptr (topOf c) comp = ok (none, topOf c', comp') ∧ plug c' leaf = plug c t ∧ (∀ f cs, c' = f :: cs → decide (comp' < 0) = f.d) ∧
      t.inorder = xs ++ ys ∧ before true c' = before true c ++ xs ∧ after true c' = ys ++ after true c ∧ (∀ x ∈ xs, 0 < cmp elm x) ∧ (∀ y ∈ ys, cmp elm y < 0)) := by
  intro t
  induction t with
  | leaf =>
    intro c fuel comp h _ hf hd
    obtain ⟨n, rfl⟩ : ∃ n, fuel = n + 1 := ⟨fuel - 1, by omega⟩
    exact .inr ⟨c, comp, [], [], rfl, rfl, hd, rfl, by simp, by simp, by simp, by simp⟩
  | node red l i r ihl ihr =>
    intro c fuel comp h hs hf hd
    obtain ⟨n, rfl⟩ : ∃ n, fuel = n + 1 := ⟨fuel - 1, by omega⟩
    have e := h.tree.1
    obtain ⟨hl, hr, hli, hir⟩ := sorted_node hs
    simp only [depth] at hf
    by_cases h1 : cmp elm i < 0
    · have h' : RbHolds m0 s (⟨true, red, i, r⟩ :: c) l := holds_plug.mpr h
      have hq : rbDescend cmp s elm (n + 1) (node red l i r).ptr (topOf c) comp = rbDescend cmp s elm n l.ptr (topOf (⟨true, red, i, r⟩ :: c)) (cmp elm i) := by
        simp only [ptr, rbDescend, rb_get e, ok_bind, h1, if_true, topOf]
      rw [hq]
      rcases ihl (comp := cmp elm i) h' hl (fuel := n) (by omega) (by
        intro f cs hfc; simp only [List.cons.injEq] at hfc; rw [← hfc.1]; simpa using h1) with ⟨x, hx, h2, h3⟩ | ⟨c', comp', xs, ys, h2, h3, h4, h5, h6, h7, h8, h9⟩
      · exact .inl ⟨x, by simp [inorder, hx], h2, h3⟩
      · refine .inr ⟨c', comp', xs, ys ++ i :: r.inorder, h2, h3, h4, by simp [inorder, h5], by rw [h6]; simp [before], by rw [h7]; simp [after, ord_true], h8, ?_⟩
        intro y hy
        simp only [List.mem_append, List.mem_cons] at hy
        rcases hy with hy | rfl | hy
        · exact h9 y hy
        · exact h1
        · exact cmp_lt_of_lt_of_le hc h1 (Int.le_of_lt (hir y hy))
    · by_cases h1' : cmp elm i > 0
      · have h' : RbHolds m0 s (⟨false, red, i, l⟩ :: c) r := holds_plug.mpr h
        have hq : rbDescend cmp s elm (n + 1) (node red l i r).ptr (topOf c) comp = rbDescend cmp s elm n r.ptr (topOf (⟨false, red, i, l⟩ :: c)) (cmp elm i) := by
          simp only [ptr, rbDescend, rb_get e, ok_bind, h1, if_false, h1', if_true, topOf]
        rw [hq]
        rcases ihr (comp := cmp elm i) h' hr (fuel := n) (by omega) (by
          intro f cs hfc; simp only [List.cons.injEq] at hfc; rw [← hfc.1]; simpa using h1) with ⟨x, hx, h2, h3⟩ | ⟨c', comp', xs, ys, h2, h3, h4, h5, h6, h7, h8, h9⟩
        · exact .inl ⟨x, by simp [inorder, hx], h2, h3⟩
        · refine .inr ⟨c', comp', l.inorder ++ i :: xs, ys, h2, h3, h4, by simp [inorder, h5], by rw [h6]; simp [before, ord_true], by rw [h7]; simp [after], ?_, h9⟩
          intro x hx
          simp only [List.mem_append, List.mem_cons] at hx
          rcases hx with hx | rfl | hx
          · exact (hc.anti x elm).mp (cmp_lt_of_lt_of_le hc (hli x hx) (Int.le_of_lt ((hc.anti i elm).mpr h1')))
          · exact h1'
          · exact h8 x hx
      · refine .inl ⟨i, by simp [inorder], by omega, ?_⟩
        simp only [ptr, rbDescend, rb_get e, ok_bind, h1, if_false, h1']

/-- The new element is linked below the last one seen. -/
theorem hang_holds {m0 s c elm ee comp} (h : RbHolds m0 s c leaf) (he : s.ent elm = some ee) (hn : elm ∉ cids c) (hd : ∀ f cs, c = f :: cs → decide (comp < 0) = f.d) :
    ∃ s1 s2, s.mod (some elm) (fun _ => ⟨none, none, topOf c, true⟩) = ok s1 ∧ rbHang s1 (topOf c) comp elm = ok s2 ∧ RbHolds m0 s2 c (node true leaf elm leaf) := by
  let s1 : RbMem := ⟨s.root, fun j => if j = elm then some ⟨none, none, topOf c, true⟩ else s.ent j⟩
  have q1 : s.mod (some elm) (fun _ => ⟨none, none, topOf c, true⟩) = ok s1 := rb_mod he _
  have o1 : ∀ j, j ≠ elm → s1.ent j = s.ent j := fun j hj => by simp only [s1]; rw [if_neg hj]
  have hnd : (cids c ++ (node true leaf elm leaf).ids).Nodup := by
    have := h.nodup
    simp only [ids, List.append_nil, List.nodup_append, List.mem_singleton] at this ⊢
    exact ⟨this, by simp, fun a ha b hb => by rintro rfl; subst hb; exact hn ha⟩
  cases c with
  | nil =>
    refine ⟨s1, { s1 with root := some elm }, q1, rfl, rfl, ⟨by simp [s1, topOf, ptr], trivial, trivial⟩, hnd, ?_⟩
    intro j hj
    simp only [cids, ids, List.append_nil, List.nil_append, List.mem_singleton] at hj
    show s1.ent j = _
    rw [o1 j hj]
    exact h.frame j (by simp [cids, ids])
  | cons f c =>
    obtain ⟨h1, h2, h3⟩ := h.ctx
    have hne : f.i ≠ elm := by rintro rfl; exact hn (by simp [cids])
    have e1 : s1.ent f.i = some (.of f.d none f.sib.ptr (topOf c) f.red) := by rw [o1 _ hne]; exact h1
    have hd := hd f c rfl
    let s2 : RbMem := ⟨s1.root, fun j => if j = f.i then some (.of f.d (some elm) f.sib.ptr (topOf c) f.red) else s1.ent j⟩
    have q2 : rbHang s1 (topOf (f :: c)) comp elm = ok s2 := by
      have : rbHang s1 (topOf (f :: c)) comp elm = s1.setChild (some f.i) f.d (some elm) := by
        simp only [rbHang, topOf, ne_eq, reduceCtorEq, not_false_eq_true, if_true]
        by_cases hcp : comp < 0
        · rw [if_pos hcp]; rw [decide_eq_true hcp] at hd; rw [← hd]
        · rw [if_neg hcp]; rw [decide_eq_false hcp] at hd; rw [← hd]
      rw [this, RbMem.setChild, rb_mod e1, RbEnt.of_setChild]
    have o2 : ∀ j, j ≠ f.i → j ≠ elm → s2.ent j = s.ent j := fun j hj hj' => by simp only [s2]; rw [if_neg hj, o1 j hj']
    have hnc := h.nodup
    simp only [cids, ids, List.append_nil, List.nodup_cons, List.mem_append, not_or] at hnc
    refine ⟨s1, s2, q1, q2, ⟨?_, ?_, ?_⟩, ⟨?_, trivial, trivial⟩, hnd, ?_⟩
    · simp [s2, ptr]
    · exact h2.congr fun j hj => o2 j (by rintro rfl; exact hnc.1.1 hj) (by rintro rfl; exact hn (by simp [cids, hj]))
    · show RepC s2.ent s1.root c _
      exact h3.congr fun j hj => o2 j (by rintro rfl; exact hnc.1.2 hj) (by rintro rfl; exact hn (by simp [cids, hj]))
    · simp only [s2]
      rw [if_neg (fun h => hne h.symm)]
      simp [s1, topOf, ptr]
    · intro j hj
      simp only [cids, ids, List.append_nil, List.mem_append, List.mem_cons, not_or, List.not_mem_nil, or_false] at hj
      rw [o2 j hj.1.1 (by simpa using hj.2)]
      refine h.frame j ?_
      simp only [cids, ids, List.append_nil, List.mem_append, List.mem_cons, not_or]
      exact hj.1

theorem member_unique {cmp : Nat → Nat → Int} (hc : Spec.Compares cmp) {k x : Nat} : ∀ {xs : List Nat}, Spec.Ascending cmp xs → x ∈ xs → cmp k x = 0 → Spec.member cmp k xs = some x
  | [], _, h, _ => by cases h
  | y :: xs, hs, h, h0 => by
    rw [Spec.member, List.find?_cons]
    simp only [Spec.Ascending, List.pairwise_cons] at hs
    by_cases hy : cmp k y = 0
    · simp only [hy, decide_true]
      rcases List.mem_cons.mp h with rfl | hx
      · rfl
      · have h1 := hs.1 x hx
        have h2 := cmp_lt_of_le_of_lt hc (a := k) (b := y) (c := x) (by omega) h1
        omega
    · simp only [hy, decide_false]
      rcases List.mem_cons.mp h with rfl | hx
      · exact absurd h0 hy
      · exact member_unique hc hs.2 hx h0

theorem member_none {cmp : Nat → Nat → Int} {k : Nat} {xs ys : List Nat} (h1 : ∀ x ∈ xs, 0 < cmp k x) (h2 : ∀ y ∈ ys, cmp k y < 0) : Spec.member cmp k (xs ++ ys) = none := by
  rw [Spec.member, List.find?_eq_none]
  intro x hx
  rcases List.mem_append.mp hx with h | h
  · have := h1 x h; simp; omega
  · have := h2 x h; simp; omega

theorem filter_split {cmp : Nat → Nat → Int} {k : Nat} {xs ys : List Nat} (h1 : ∀ x ∈ xs, 0 < cmp k x) (h2 : ∀ y ∈ ys, cmp k y < 0) :
    (xs ++ ys).filter (fun x => 0 < cmp k x) = xs ∧ (xs ++ ys).filter (fun x => cmp k x < 0) = ys := by
  rw [List.filter_append, List.filter_append]
  rw [List.filter_eq_self.mpr (fun x hx => by simpa using h1 x hx), List.filter_eq_nil_iff.mpr (fun y hy => by have := h2 y hy; simp; omega),
    List.filter_eq_nil_iff.mpr (fun y hy => by have := h1 y hy; simp; omega), List.filter_eq_self.mpr (fun x hx => by simpa using h2 x hx)]
  simp

/-- `RB_INSERT`. -/
theorem rbInsert_spec {cmp : Nat → Nat → Int} (hc : Spec.Compares cmp) {m0 s fuel elm ee} {T : RbT} (hs : RbHolds m0 s [] T) {h0} (hok : T.Ok h0) (hblk : T.isRed = false)
    (hasc : Spec.Ascending cmp T.inorder) (he : s.ent elm = some ee) (hf : T.depth < fuel) :
    ∃ s' T' h r, rbInsert cmp fuel s elm = ok (s', r) ∧ RbHolds s'.ent s' [] T' ∧ Spec.setStep cmp T.inorder (.insert elm) = some (T'.inorder, r) ∧ T'.Ok h ∧ T'.isRed = false ∧
      (∀ j, j ∉ T.ids → j ≠ elm → s'.ent j = s.ent j) ∧ Spec.Ascending cmp T'.inorder := by
  have hroot : s.root = T.ptr := hs.ctx
  rcases rbDescend_spec hc (elm := elm) (comp := 0) hs hasc hf (by simp) with ⟨x, hx, h1, h2⟩ | ⟨c', comp', xs, ys, h1, h2, h3, h4, h5, h6, h7, h8⟩
  · refine ⟨s, T, h0, some x, ?_, hs.self, ?_, hok, hblk, fun _ _ _ => rfl, hasc⟩
    · rw [← hroot] at h2
      simp only [topOf] at h2
      simp only [rbInsert, h2, ok_bind, ne_eq, reduceCtorEq, not_false_eq_true, if_true]
    · simp only [Spec.setStep, member_unique hc hasc hx h1]
  · simp only [plug] at h2
    simp only [before, after, List.nil_append, List.append_nil] at h5 h6
    have hs' : RbHolds s.ent s c' leaf := holds_root.mpr (h2 ▸ hs.self)
    have hself := cmp_self hc elm
    have hnot : elm ∉ T.inorder := by
      rw [h4]
      intro hm
      rcases List.mem_append.mp hm with h | h
      · have := h7 elm h; omega
      · have := h8 elm h; omega
    have hnc : elm ∉ cids c' := by
      intro hm
      refine hnot ((ids_inorder T).mem_iff.mp ?_)
      rw [← h2]
      exact (plug_ids ..).mem_iff.mp (by simp [hm])
    obtain ⟨s1, s2, q1, q2, g⟩ := hang_holds hs' he hnc h3
    obtain ⟨k, o1, o2⟩ := unplug_ok (c := c') (t := leaf) (h := h0) (by rw [h2]; exact hok) (by rw [h2]; exact hblk)
    have hlen : c'.length ≤ T.depth := by have := depth_plug (c := c') (t := leaf); rw [h2] at this; simp only [depth] at this; omega
    have hk := ok_leaf.mp o1
    subst hk
    obtain ⟨s3, T', k, q3, g3, hin, o3⟩ := rbInsertLoop_spec fuel (x := elm) (h := 0) g rfl rfl ⟨rfl, rfl, rfl, rfl⟩ o2 (by omega)
    have hin' : T'.inorder = xs ++ elm :: ys := by
      rw [hin, inorder_plug, h5, h6]
      simp [inorder]
    have hne : T' ≠ leaf := by rintro rfl; simp [inorder] at hin'
    obtain ⟨tr, a, i, b, rfl⟩ := exists_mk true hne
    obtain ⟨s4, q4, g4⟩ := setRed_mk (v := false) g3
    have hroot3 : s3.root = some i := by have : s3.root = (mk true tr a i b).ptr := g3.ctx; rw [this, ptr_mk]
    obtain ⟨k', o4⟩ := black_ok o3
    rw [black_mk] at o4
    have hin4 : (mk true false a i b).inorder = xs ++ elm :: ys := hin'
    have hfs := filter_split h7 h8
    refine ⟨s4, _, k', none, ?_, g4.self, ?_, o4, isRed_mk .., ?_, ?_⟩
    · have h1 : rbDescend cmp s elm fuel T.ptr none 0 = ok (none, topOf c', comp') := h1
      rw [rbInsert, hroot, h1, ok_bind]
      simp only [ne_eq, not_true_eq_false, if_false, q1, ok_bind, q2, rbInsertColor, q3, hroot3, q4]
    · simp only [Spec.setStep, h4, member_none h7 h8, hfs.1, hfs.2, hin4]
    · intro j hj hj'
      refine g4.frame j ?_
      simp only [cids, List.nil_append]
      rw [(ids_inorder _).mem_iff, hin4]
      intro hm
      refine hj ((ids_inorder T).mem_iff.mpr ?_)
      rw [h4]
      simp only [List.mem_append, List.mem_cons] at hm ⊢
      rcases hm with h | h | h
      · exact .inl h
      · exact absurd h hj'
      · exact .inr h
    · rw [hin4]
      rw [h4] at hasc
      simp only [Spec.Ascending, List.pairwise_append, List.pairwise_cons, List.mem_cons] at hasc ⊢
      refine ⟨hasc.1, ⟨h8, hasc.2.1⟩, ?_⟩
      rintro x hx y (rfl | hy)
      · exact (hc.anti x y).mpr (h7 x hx)
      · exact hasc.2.2 x hx y hy

end Wdns
