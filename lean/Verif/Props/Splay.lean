import Verif.Lemmas.Splay
import Verif.Props.RbTree
import Verif.Spec.Splay

/-!
# C100: the splay trees of libmy/tree.h are ordered sets
-/

namespace Wdns
open Outcome RbT

theorem depth_le (t : RbT) : t.depth ≤ t.inorder.length := by
  induction t with
  | leaf => simp [depth]
  | node red l i r h1 h2 => simp only [depth, inorder, List.length_append, List.length_cons]; omega

theorem spMono_of {cmp : Nat → Nat → Int} (hc : Spec.Compares cmp) {xs : List Nat} (h : Spec.Ascending cmp xs) (k : Nat) : SpMono (cmp k) xs := by
  refine List.Pairwise.imp ?_ h
  intro a b hab
  have h1 : cmp k a ≤ 0 → cmp k b < 0 := fun h => cmp_lt_of_le_of_lt hc h hab
  exact ⟨h1, fun h => by by_cases h' : cmp k a ≤ 0 <;> [have := h1 h'; skip] <;> omega⟩

theorem spMono_const (d : Bool) (xs : List Nat) : SpMono (fun _ => if d then -1 else 1) xs := by
  induction xs with
  | nil => exact .nil
  | cons x xs ih => exact .cons (fun y _ => by cases d <;> simp) ih

theorem SpTree.fresh {m0 s T} (h : SpTree m0 s T) : SpTree s.ent s T := ⟨h.root, h.tree, h.nodup, fun _ _ => rfl⟩

/-- What `SPLAY` with an element leaves behind. -/
theorem spTop {cmp : Nat → Nat → Int} (hc : Spec.Compares cmp) {fuel k : Nat} {m0 s} {T : RbT} (h : SpTree m0 s T) (hne : T ≠ leaf) (hs : Spec.Ascending cmp T.inorder) (hf : T.inorder.length ≤ fuel) :
    ∃ s' red l r g, spSplay (cmp k) fuel s = ok s' ∧ SpTree m0 s' (node red l r g) ∧ (node red l r g).inorder = T.inorder ∧
      ((cmp k r = 0 ∧ Spec.member cmp k T.inorder = some r ∧ (∀ x ∈ l.inorder, 0 < cmp k x) ∧ ∀ y ∈ g.inorder, cmp k y < 0) ∨
       (cmp k r < 0 ∧ Spec.member cmp k T.inorder = none ∧ (∀ x ∈ l.inorder, 0 < cmp k x) ∧ ∀ y ∈ g.inorder, cmp k y < 0) ∨
       (0 < cmp k r ∧ Spec.member cmp k T.inorder = none ∧ (∀ x ∈ l.inorder, 0 < cmp k x) ∧ ∀ y ∈ g.inorder, cmp k y < 0)) := by
  obtain ⟨s', red, l, r, g, q, h1, hi, hcase⟩ := spSplay_spec (cmp := cmp k) h hne (spMono_of hc hs k) (Nat.le_trans (depth_le T) hf)
  refine ⟨s', red, l, r, g, q, h1, hi, ?_⟩
  rw [← hi] at hs ⊢
  obtain ⟨_, _, hl, hg⟩ := sorted_node hs
  have hpos : 0 ≤ cmp k r → ∀ x ∈ l.inorder, 0 < cmp k x := fun h x hx => (hc.anti x k).mp (cmp_lt_of_lt_of_le hc (hl x hx) (by
    by_cases h' : cmp r k ≤ 0
    · exact h'
    · have := (hc.anti k r).mpr (by omega); omega))
  have hneg : cmp k r ≤ 0 → ∀ y ∈ g.inorder, cmp k y < 0 := fun h y hy => cmp_lt_of_le_of_lt hc h (hg y hy)
  rcases hcase with h0 | ⟨h0, h2⟩ | ⟨h0, h2⟩
  · exact .inl ⟨h0, member_unique hc hs (by simp [inorder]) h0, hpos (by omega), hneg (by omega)⟩
  · refine .inr (.inl ⟨h0, member_none (xs := l.inorder) (ys := r :: g.inorder) h2 ?_, h2, hneg (by omega)⟩)
    intro y hy
    rcases List.mem_cons.mp hy with rfl | hy
    · exact h0
    · exact hneg (by omega) y hy
  · refine .inr (.inr ⟨h0, ?_, hpos (by omega), h2⟩)
    have := member_none (cmp := cmp) (k := k) (xs := l.inorder ++ [r]) (ys := g.inorder) (by
      intro x hx
      rcases List.mem_append.mp hx with hx | hx
      · exact hpos (by omega) x hx
      · simp only [List.mem_singleton] at hx; rw [hx]; exact h0) h2
    simpa [inorder] using this

theorem spCut_spec {m0 s d red a r b} {elm : Nat} (h : SpTree m0 s (mk d red a r b)) (hn : elm ∉ (mk d red a r b).ids) (he : ∃ e, s.ent elm = some e) :
    ∃ s', spCut s d elm = ok s' ∧ SpTree m0 { s' with root := some elm } (mk d red a elm (mk d red leaf r b)) := by
  obtain ⟨e, he⟩ := he
  obtain ⟨er, ha, hb⟩ := spRep_mk.mp h.tree
  have hroot : s.root = some r := by rw [h.root, ptr_mk]
  have hnm : elm ≠ r ∧ elm ∉ a.ids ∧ elm ∉ b.ids := by
    have := hn; rw [mem_mk] at this; simpa [not_or] using this
  have hnd := (ids_mk d red a r b).nodup_iff.mp h.nodup
  simp only [List.nodup_cons, List.mem_append, not_or] at hnd
  have hre : r ≠ elm := fun h => hnm.1 h.symm
  simp only [spCut, hroot, sp_get er, ok_bind, SpEnt.of_child, sp_set he]
  rw [sp_set (e := e.setChild d a.ptr) (by simp), ok_bind]
  simp only [hroot]
  rw [sp_set (e := .of d a.ptr b.ptr) (by simp [hre, er])]
  refine ⟨_, rfl, by rw [ptr_mk], spRep_mk.mpr ⟨?_, ?_, spRep_mk.mpr ⟨?_, trivial, ?_⟩⟩, ?_, ?_⟩
  · simp only [hnm.1, if_false, if_true, ptr_mk]
    cases d <;> rfl
  · refine ha.congr fun j hj => ?_
    have h1 : j ≠ r := by rintro rfl; exact hnd.1.1 hj
    have h2 : j ≠ elm := by rintro rfl; exact hnm.2.1 hj
    simp [h1, h2]
  · simp [SpEnt.of_setChild, ptr]
  · refine hb.congr fun j hj => ?_
    have h1 : j ≠ r := by rintro rfl; exact hnd.1.2 hj
    have h2 : j ≠ elm := by rintro rfl; exact hnm.2.2 hj
    simp [h1, h2]
  · refine (List.Perm.nodup_iff (l₂ := elm :: (mk d red a r b).ids) ?_).mpr (List.nodup_cons.mpr ⟨hn, h.nodup⟩)
    refine (ids_mk ..).trans (.cons _ ?_)
    refine (List.Perm.append_left _ (ids_mk ..)).trans (List.Perm.trans ?_ (ids_mk ..).symm)
    rw [List.perm_iff_count]; intro z
    simp only [List.count_cons, List.count_append, ids, List.count_nil]; omega
  · intro i hi
    simp only [mem_mk, not_or] at hi
    simp only [hi.1, hi.2.2.1, if_false]
    exact h.frame i (by simp only [mem_mk, not_or]; exact ⟨hi.2.2.1, hi.2.1, hi.2.2.2.2⟩)

theorem SpTree.root_none {m0 s T} (h : SpTree m0 s T) : s.root = none ↔ T = leaf := by
  rw [h.root]
  cases T <;> simp [ptr]

theorem spInsert_spec {cmp : Nat → Nat → Int} (hc : Spec.Compares cmp) {fuel i : Nat} {m0 s} {T : RbT} {ys r} (h : SpTree m0 s T) (hs : Spec.Ascending cmp T.inorder) (hf : T.inorder.length ≤ fuel)
    (he : ∃ e, s.ent i = some e) (hst : Spec.splayStep cmp T.inorder (.insert i) = some (ys, r)) :
    ∃ s' T', spInsert cmp fuel s i = ok (s', r) ∧ SpTree m0 s' T' ∧ T'.inorder = ys := by
  by_cases hT : T = leaf
  · subst hT
    simp only [Spec.splayStep, inorder, Spec.member, List.find?_nil, List.filter_nil, List.nil_append, Option.some.injEq, Prod.mk.injEq] at hst
    obtain ⟨rfl, rfl⟩ := hst
    obtain ⟨e, he⟩ := he
    rw [spInsert, if_pos (h.root_none.mpr rfl), sp_set he, ok_bind, sp_set (e := e.setChild false none) (by simp), ok_bind]
    refine ⟨_, node false leaf i leaf, rfl, ⟨rfl, ⟨?_, trivial, trivial⟩, by simp [ids], ?_⟩, rfl⟩
    · simp [SpEnt.setChild, ptr]
    · intro j hj
      simp only [ids, List.nil_append, List.mem_singleton] at hj
      simp only [hj, if_false]
      exact h.frame j (by simp [ids])
  · obtain ⟨s1, red, l, x, g, q, h1, hi, hcase⟩ := spTop hc (k := i) h hT hs hf
    have hroot : s1.root = some x := h1.root
    have hmem : i ∈ (node red l x g).ids → cmp i i = 0 := fun _ => cmp_self hc i
    have he1 : ∃ e, s1.ent i = some e := by
      by_cases hm : i ∈ (node red l x g).ids
      · exact h1.tree.mem i hm
      · rw [h1.frame i hm, ← h.frame i (by rw [(ids_inorder T).mem_iff, ← hi, ← (ids_inorder _).mem_iff]; exact hm)]; exact he
    have hnot : Spec.member cmp i T.inorder = none → i ∉ (node red l x g).ids := fun hm hin => by
      rw [(ids_inorder _).mem_iff, hi] at hin
      rw [member_unique hc hs hin (cmp_self hc i)] at hm
      cases hm
    rw [spInsert, if_neg (fun hr => hT (h.root_none.mp hr)), q, ok_bind]
    simp only [spRootCmp, hroot, ok_bind]
    rcases hcase with ⟨h0, hm, hl, hg⟩ | ⟨h0, hm, hl, hg⟩ | ⟨h0, hm, hl, hg⟩
    · rw [if_neg (by omega), if_neg (by omega)]
      simp only [Spec.splayStep, hm, Option.some.injEq, Prod.mk.injEq] at hst
      rw [← hst.1, ← hst.2]
      exact ⟨_, _, rfl, h1, hi⟩
    · obtain ⟨s2, q2, h2⟩ := spCut_spec (d := true) (elm := i) h1 (hnot hm) he1
      rw [if_pos h0, q2, ok_bind]
      simp only [Spec.splayStep, hm, Option.some.injEq, Prod.mk.injEq] at hst
      rw [← hst.1, ← hst.2]
      refine ⟨_, _, rfl, h2, ?_⟩
      have hsp := filter_split (cmp := cmp) (k := i) (xs := l.inorder) (ys := x :: g.inorder) hl (by
        intro y hy
        rcases List.mem_cons.mp hy with rfl | hy
        · exact h0
        · exact hg y hy)
      rw [← hi]
      simp only [inorder, hsp.1, hsp.2, mk, if_true, List.nil_append]
    · obtain ⟨s2, q2, h2⟩ := spCut_spec (d := false) (elm := i) h1 (hnot hm) he1
      rw [if_neg (by omega), if_pos h0, q2, ok_bind]
      simp only [Spec.splayStep, hm, Option.some.injEq, Prod.mk.injEq] at hst
      rw [← hst.1, ← hst.2]
      refine ⟨_, _, rfl, h2, ?_⟩
      have hsp := filter_split (cmp := cmp) (k := i) (xs := l.inorder ++ [x]) (ys := g.inorder) (by
        intro y hy
        rcases List.mem_append.mp hy with hy | hy
        · exact hl y hy
        · simp only [List.mem_singleton] at hy; rw [hy]; exact h0) hg
      have e1 : (node red l x g).inorder = l.inorder ++ [x] ++ g.inorder := by simp [inorder]
      rw [← hi, e1, hsp.1, hsp.2]
      simp [inorder, mk]

theorem SpTree.sub {m0 s red l r g} (h : SpTree m0 s (node red l r g)) (d : Bool) :
    SpTree s.ent { s with root := (if d then l else g).ptr } (if d then l else g) := by
  have hn := h.nodup
  simp only [ids, List.nodup_cons, List.nodup_append] at hn
  cases d
  · exact ⟨rfl, h.tree.2.2, hn.2.2.1, fun _ _ => rfl⟩
  · exact ⟨rfl, h.tree.2.1, hn.2.1, fun _ _ => rfl⟩

theorem erase_mid {x : Nat} : ∀ {as bs : List Nat}, x ∉ as → (as ++ x :: bs).erase x = as ++ bs
  | [], bs, _ => by simp
  | a :: as, bs, h => by
    simp only [List.mem_cons, not_or] at h
    rw [List.cons_append, List.erase_cons_tail (by simp; exact fun e => h.1 e.symm), erase_mid h.2, List.cons_append]

theorem spBehead_spec {cmp : Nat → Nat → Int} (hc : Spec.Compares cmp) {fuel k : Nat} {m0 s red l x g} (h : SpTree m0 s (node red l x g)) (hs : Spec.Ascending cmp (node red l x g).inorder)
    (hf : l.inorder.length ≤ fuel) (hl : ∀ y ∈ l.inorder, 0 < cmp k y) :
    ∃ s' T', spBehead cmp fuel s k = ok s' ∧ SpTree s'.ent s' T' ∧ T'.inorder = l.inorder ++ g.inorder ∧ ∀ i, i ∉ l.ids → s'.ent i = s.ent i := by
  have hroot : s.root = some x := h.root
  have ex : s.ent x = some ⟨l.ptr, g.ptr⟩ := h.tree.1
  rw [spBehead, hroot, sp_get ex, ok_bind]
  by_cases hlf : l = leaf
  · subst hlf
    rw [if_pos (show (leaf : RbT).ptr = none from rfl)]
    exact ⟨_, g, rfl, h.sub false, by simp [inorder], fun _ _ => rfl⟩
  · have hp : ¬ l.ptr = none := by cases l <;> simp_all [ptr]
    rw [if_neg hp]
    have hn := h.nodup
    simp only [ids, List.nodup_cons, List.nodup_append, List.mem_append, not_or] at hn
    obtain ⟨s1, red1, l1, r1, g1, q, h1, hi, hcase⟩ := spTop hc (k := k) (h.sub true) hlf (sorted_node hs).1 hf
    have hr1 : r1 ∈ l.inorder := by rw [← if_pos (c := (true = true)) (rfl) (α := RbT) (t := l) (e := g), ← hi]; simp [inorder]
    have hpos := hl r1 hr1
    have hg1 : ∀ y ∈ g1.inorder, cmp k y < 0 := by
      rcases hcase with h | h | h
      · exact h.2.2.2
      · exact h.2.2.2
      · exact h.2.2.2
    have hg1e : g1 = leaf := by
      cases g1 with
      | leaf => rfl
      | node b ll y gg =>
        have h2 := hg1 y (by simp [inorder])
        have h3 := hl y (by rw [← if_pos (c := (true = true)) (rfl) (α := RbT) (t := l) (e := g), ← hi]; simp [inorder])
        omega
    subst hg1e
    simp only [if_true] at q h1 hi
    have hids : ∀ j, j ∈ (node red1 l1 r1 leaf).ids ↔ j ∈ l.ids := fun j => by rw [(ids_inorder _).mem_iff, hi, ← (ids_inorder _).mem_iff]
    have e1 : s1.ent r1 = some ⟨l1.ptr, none⟩ := h1.tree.1
    have hroot1 : s1.root = some r1 := h1.root
    have hnd1 := h1.nodup
    simp only [ids, List.nodup_cons, List.append_nil] at hnd1
    show ∃ s' T', (do let s2 ← spSplay (cmp k) fuel { s with root := l.ptr }; s2.setChild s2.root false g.ptr) = ok s' ∧ _
    rw [q, ok_bind, hroot1, sp_set e1]
    have hgr : ∀ j ∈ g.ids, s1.ent j = s.ent j := fun j hj => h1.frame j (fun hm => hn.2.2.2 j ((hids j).mp hm) j hj rfl)
    have hrl : r1 ∈ l.ids := (hids r1).mp (by simp [ids])
    have hrg : r1 ∉ g.ids := fun hm => hn.2.2.2 r1 hrl r1 hm rfl
    refine ⟨_, node red1 l1 r1 g, rfl, ⟨hroot1, ⟨?_, ?_, ?_⟩, ?_, fun _ _ => rfl⟩, ?_, ?_⟩
    · simp [SpEnt.setChild]
    · refine h1.tree.2.1.congr fun j hj => ?_
      have : j ≠ r1 := by rintro rfl; exact hnd1.1 hj
      simp [this]
    · refine h.tree.2.2.congr fun j hj => ?_
      have : j ≠ r1 := by rintro rfl; exact hrg hj
      simp only [this, if_false]
      exact hgr j hj
    · simp only [ids, List.nodup_cons, List.nodup_append, List.mem_append, not_or]
      refine ⟨⟨hnd1.1, hrg⟩, hnd1.2, hn.2.2.1, fun a ha b hb hab => ?_⟩
      subst hab
      exact hn.2.2.2 a ((hids a).mp (by simp [ids, ha])) a hb rfl
    · have : l.inorder = l1.inorder ++ [r1] := by rw [← hi]; rfl
      rw [this]
      simp [inorder]
    · intro i hi'
      have : i ≠ r1 := by rintro rfl; exact hi' hrl
      simp only [this, if_false]
      exact h1.frame i (fun hm => hi' ((hids i).mp hm))

theorem spRemove_spec {cmp : Nat → Nat → Int} (hc : Spec.Compares cmp) {fuel k : Nat} {m0 s} {T : RbT} {ys r} (h : SpTree m0 s T) (hs : Spec.Ascending cmp T.inorder) (hf : T.inorder.length ≤ fuel)
    (hst : Spec.splayStep cmp T.inorder (.remove k) = some (ys, r)) :
    ∃ s' T', spRemove cmp fuel s k = ok (s', r) ∧ SpTree s'.ent s' T' ∧ T'.inorder = ys ∧ (∀ i, i ∉ T.ids → s'.ent i = m0 i) ∧
      ∀ i ∈ T.ids, ∃ e, s'.ent i = some e := by
  by_cases hT : T = leaf
  · subst hT
    simp only [Spec.splayStep, inorder, Spec.member, List.find?_nil, Option.some.injEq, Prod.mk.injEq] at hst
    obtain ⟨rfl, rfl⟩ := hst
    rw [spRemove, if_pos (h.root_none.mpr rfl)]
    exact ⟨_, _, rfl, h.fresh, rfl, h.frame, fun i hi => h.tree.mem i hi⟩
  · obtain ⟨s1, red, l, x, g, q, h1, hi, hcase⟩ := spTop hc (k := k) h hT hs hf
    have hroot : s1.root = some x := h1.root
    have hids : ∀ j, j ∈ (node red l x g).ids ↔ j ∈ T.ids := fun j => by rw [(ids_inorder _).mem_iff, hi, ← (ids_inorder _).mem_iff]
    rw [spRemove, if_neg (fun hr => hT (h.root_none.mp hr)), q, ok_bind]
    simp only [spRootCmp, hroot, ok_bind]
    have hout : ∀ X : Outcome (SpMem × Option Nat), Spec.member cmp k T.inorder = none → cmp k x ≠ 0 → ∃ s' T', (if cmp k x = 0 then X else ok (s1, none)) = ok (s', r) ∧
        SpTree s'.ent s' T' ∧ T'.inorder = ys ∧ (∀ i, i ∉ T.ids → s'.ent i = m0 i) ∧ ∀ i ∈ T.ids, ∃ e, s'.ent i = some e := fun X hm h0 => by
      rw [if_neg h0]
      simp only [Spec.splayStep, hm, Option.some.injEq, Prod.mk.injEq] at hst
      rw [← hst.1, ← hst.2]
      exact ⟨_, _, rfl, h1.fresh, hi, fun i hin => h1.frame i (fun hm => hin ((hids i).mp hm)), fun i hin => h1.tree.mem i ((hids i).mpr hin)⟩
    rcases hcase with ⟨h0, hm, hl, hg⟩ | ⟨h0, hm, hl, hg⟩ | ⟨h0, hm, hl, hg⟩
    · rw [if_pos h0]
      have hlen : (node red l x g).inorder.length = T.inorder.length := by rw [hi]
      simp only [inorder, List.length_append, List.length_cons] at hlen
      obtain ⟨s2, T2, q2, h2, hi2, hfr⟩ := spBehead_spec hc (k := k) (fuel := fuel) h1 (by rw [hi]; exact hs) (by omega) hl
      rw [q2, ok_bind]
      simp only [Spec.splayStep, hm, Option.some.injEq, Prod.mk.injEq] at hst
      rw [← hst.1, ← hst.2]
      refine ⟨_, _, rfl, h2, ?_, fun i hin => ?_, fun i hin => ?_⟩
      · have hxl : x ∉ l.inorder := fun hx => by have := hl x hx; omega
        rw [hi2, ← hi, inorder, erase_mid hxl]
      · have hin' : i ∉ (node red l x g).ids := fun hm => hin ((hids i).mp hm)
        rw [hfr i (fun hm => hin' (by simp [ids, hm])), h1.frame i hin']
      · by_cases h3 : i ∈ T2.ids
        · exact h2.tree.mem i h3
        · rw [hfr i (fun hl => h3 (by rw [(ids_inorder _).mem_iff, hi2, List.mem_append]; exact .inl ((ids_inorder _).mem_iff.mp hl)))]
          exact h1.tree.mem i ((hids i).mpr hin)
    · exact hout _ hm (by omega)
    · exact hout _ hm (by omega)

theorem spFind_spec {cmp : Nat → Nat → Int} (hc : Spec.Compares cmp) {fuel k : Nat} {m0 s} {T : RbT} (h : SpTree m0 s T) (hs : Spec.Ascending cmp T.inorder) (hf : T.inorder.length ≤ fuel) :
    ∃ s' T', spFind cmp fuel s k = ok (s', Spec.member cmp k T.inorder) ∧ SpTree m0 s' T' ∧ T'.inorder = T.inorder := by
  by_cases hT : T = leaf
  · subst hT
    rw [spFind, if_pos (h.root_none.mpr rfl)]
    exact ⟨_, _, rfl, h, rfl⟩
  · obtain ⟨s1, red, l, x, g, q, h1, hi, hcase⟩ := spTop hc (k := k) h hT hs hf
    have hroot : s1.root = some x := h1.root
    rw [spFind, if_neg (fun hr => hT (h.root_none.mp hr)), q, ok_bind]
    simp only [spRootCmp, hroot, ok_bind]
    rcases hcase with ⟨h0, hm, _⟩ | ⟨h0, hm, _⟩ | ⟨h0, hm, _⟩
    · rw [if_pos h0, hm]
      exact ⟨_, _, rfl, h1, hi⟩
    · rw [if_neg (by omega), hm]
      exact ⟨_, _, rfl, h1, hi⟩
    · rw [if_neg (by omega), hm]
      exact ⟨_, _, rfl, h1, hi⟩

theorem spEdge_spec {s : SpMem} : ∀ {t : RbT} {fuel : Nat}, SpRep s.ent t → t ≠ leaf → t.depth ≤ fuel → spEdge s fuel t.ptr = ok t.inorder.head?
  | leaf, _, _, h, _ => absurd rfl h
  | node red l i r, 0, _, _, hf => by simp only [depth] at hf; omega
  | node red l i r, fuel + 1, hr, _, hf => by
    simp only [depth] at hf
    have e : s.ent i = some ⟨l.ptr, r.ptr⟩ := hr.1
    rw [show (node red l i r).ptr = some i from rfl, spEdge, sp_get e, ok_bind]
    by_cases hl : l = leaf
    · subst hl
      rw [if_neg (by simp [ptr])]
      simp [inorder]
    · have : l.ptr ≠ none := by cases l <;> simp_all [ptr]
      rw [if_pos this, spEdge_spec hr.2.1 hl (by omega)]
      cases l with
      | leaf => exact absurd rfl hl
      | node => simp [inorder]

theorem spNext_spec {cmp : Nat → Nat → Int} (hc : Spec.Compares cmp) {fuel i : Nat} {m0 s} {T : RbT} (h : SpTree m0 s T) (hs : Spec.Ascending cmp T.inorder) (hf : T.inorder.length ≤ fuel)
    (hin : i ∈ T.inorder) :
    ∃ s' T', spNext cmp fuel s i = ok (s', T.inorder.find? fun x => cmp i x < 0) ∧ SpTree m0 s' T' ∧ T'.inorder = T.inorder := by
  have hT : T ≠ leaf := by rintro rfl; cases hin
  obtain ⟨s1, red, l, x, g, q, h1, hi, hcase⟩ := spTop hc (k := i) h hT hs hf
  have hmem := member_unique hc hs hin (cmp_self hc i)
  have hx : x = i ∧ (∀ x ∈ l.inorder, 0 < cmp i x) ∧ ∀ y ∈ g.inorder, cmp i y < 0 := by
    rcases hcase with ⟨h0, hm, h2⟩ | ⟨h0, hm, _⟩ | ⟨h0, hm, _⟩
    · rw [hmem, Option.some.injEq] at hm
      exact ⟨hm.symm, h2⟩
    · rw [hmem] at hm; cases hm
    · rw [hmem] at hm; cases hm
  obtain ⟨rfl, hl, hg⟩ := hx
  have e : s1.ent x = some ⟨l.ptr, g.ptr⟩ := h1.tree.1
  have hfind : (T.inorder.find? fun y => cmp x y < 0) = g.inorder.head? := by
    rw [← hi, inorder, List.find?_append, List.find?_eq_none.mpr (fun y hy => by have := hl y hy; simp; omega), Option.none_or, List.find?_cons]
    simp only [cmp_self hc x, Int.lt_irrefl, decide_false]
    cases hgi : g.inorder with
    | nil => rfl
    | cons y ys =>
      rw [List.find?_cons]
      simp only [hg y (by rw [hgi]; simp), decide_true, List.head?_cons]
  rw [spNext, q, ok_bind, sp_get e, ok_bind, hfind]
  by_cases hgl : g = leaf
  · subst hgl
    rw [if_neg (by simp [ptr])]
    exact ⟨_, _, rfl, h1, hi⟩
  · have : g.ptr ≠ none := by cases g <;> simp_all [ptr]
    have hlen : (node red l x g).inorder.length = T.inorder.length := by rw [hi]
    simp only [inorder, List.length_append, List.length_cons] at hlen
    have := depth_le g
    rw [if_pos (by assumption), spEdge_spec h1.tree.2.2 hgl (by omega), ok_bind]
    exact ⟨_, _, rfl, h1, hi⟩

theorem spMinmax_spec {fuel : Nat} {m0 s} {T : RbT} (d : Bool) (h : SpTree m0 s T) (hf : T.inorder.length ≤ fuel) :
    ∃ s' T', spMinmax fuel s d = ok (s', if d then T.inorder.head? else T.inorder.getLast?) ∧ SpTree m0 s' T' ∧ T'.inorder = T.inorder := by
  by_cases hT : T = leaf
  · subst hT
    rw [spMinmax, if_pos (h.root_none.mpr rfl)]
    exact ⟨_, _, by cases d <;> rfl, h, rfl⟩
  · obtain ⟨s1, red, l, x, g, q, h1, hi, hcase⟩ := spSplay_spec (cmp := fun _ => if d then -1 else 1) h hT (spMono_const d _) (Nat.le_trans (depth_le T) hf)
    have hroot : s1.root = some x := h1.root
    rw [spMinmax, if_neg (fun hr => hT (h.root_none.mp hr)), q, ok_bind, hroot]
    refine ⟨_, _, ?_, h1, hi⟩
    rw [← hi]
    cases d
    · have : g.inorder = [] := by
        rcases hcase with h | ⟨h, _⟩ | ⟨_, h⟩
        · simp at h
        · simp at h
        · refine List.eq_nil_iff_forall_not_mem.mpr fun y hy => ?_
          have := h y hy
          simp at this
      simp [inorder, this]
    · have : l.inorder = [] := by
        rcases hcase with h | ⟨_, h⟩ | ⟨h, _⟩
        · simp at h
        · refine List.eq_nil_iff_forall_not_mem.mpr fun y hy => ?_
          have := h y hy
          simp at this
        · simp at h
      simp [inorder, this]

/-! ## Histories -/

/-- A splay tree in memory that holds the elements `xs`. -/
def SpSet (cmp : Nat → Nat → Int) (s : SpMem) (xs : List Nat) : Prop := ∃ T, SpTree s.ent s T ∧ T.inorder = xs ∧ Spec.Ascending cmp xs

theorem insert_ascending {cmp : Nat → Nat → Int} (hc : Spec.Compares cmp) {xs : List Nat} {i : Nat} (hs : Spec.Ascending cmp xs) :
    Spec.Ascending cmp (xs.filter (fun x => 0 < cmp i x) ++ i :: xs.filter (fun x => cmp i x < 0)) := by
  simp only [Spec.Ascending, List.pairwise_append, List.pairwise_cons, List.mem_filter, List.mem_cons, decide_eq_true_eq]
  refine ⟨hs.sublist List.filter_sublist, ⟨fun y hy => hy.2, hs.sublist List.filter_sublist⟩, ?_⟩
  intro a ha b hb
  have h1 : cmp a i < 0 := (hc.anti a i).mpr ha.2
  rcases hb with rfl | hb
  · exact h1
  · exact cmp_lt_of_lt_of_le hc h1 (Int.le_of_lt hb.2)

theorem spStep_spec {cmp : Nat → Nat → Int} (hc : Spec.Compares cmp) {s : SpMem} {xs ys : List Nat} {op : SpOp} {r fuel} (h : SpSet cmp s xs) (he : ∀ i, op = .insert i → ∃ e, s.ent i = some e)
    (hst : Spec.splayStep cmp xs op = some (ys, r)) (hf : xs.length ≤ fuel) :
    ∃ s', spStep cmp fuel s op = ok (s', r) ∧ SpSet cmp s' ys ∧ (∀ j, j ∉ xs → op ≠ .insert j → s'.ent j = s.ent j) ∧ (∀ j, (∃ e, s.ent j = some e) → ∃ e, s'.ent j = some e) := by
  obtain ⟨T, g, rfl, hasc⟩ := h
  have hmem : ∀ j, j ∉ T.inorder ↔ j ∉ T.ids := fun j => by rw [(ids_inorder T).mem_iff]
  have same : ∀ {s' : SpMem} {T' : RbT}, SpTree s.ent s' T' → T'.inorder = T.inorder → ∀ j, j ∉ T.inorder → s'.ent j = s.ent j := fun h1 h2 j hj =>
    h1.frame j (by rw [(ids_inorder _).mem_iff, h2]; exact hj)
  have live : ∀ {s' : SpMem} {T' : RbT}, SpTree s.ent s' T' → ∀ j, (∃ e, s.ent j = some e) → ∃ e, s'.ent j = some e := fun {s' T'} h1 j hj => by
    by_cases hin : j ∈ T'.ids
    · exact h1.tree.mem j hin
    · rw [h1.frame j hin]; exact hj
  cases op with
  | insert i =>
    obtain ⟨s', T', q, h1, h2⟩ := spInsert_spec hc (fuel := fuel) g hasc hf (he i rfl) hst
    refine ⟨s', q, ⟨T', h1.fresh, h2, ?_⟩, fun j hj hij => ?_, live h1⟩
    · simp only [Spec.splayStep] at hst
      cases hm : Spec.member cmp i T.inorder <;> rw [hm] at hst <;> simp only [Option.some.injEq, Prod.mk.injEq] at hst <;> rw [← hst.1]
      · exact insert_ascending hc hasc
      · exact hasc
    · refine h1.frame j (fun hin => ?_)
      rw [(ids_inorder _).mem_iff, h2] at hin
      simp only [Spec.splayStep] at hst
      cases hm : Spec.member cmp i T.inorder <;> rw [hm] at hst <;> simp only [Option.some.injEq, Prod.mk.injEq] at hst <;> rw [← hst.1] at hin
      · simp only [List.mem_append, List.mem_filter, List.mem_cons] at hin
        rcases hin with h | h | h
        · exact hj h.1
        · exact hij (by rw [h])
        · exact hj h.1
      · exact hj hin
  | remove k =>
    obtain ⟨s', T', q, h1, h2, h3, h4⟩ := spRemove_spec hc (fuel := fuel) g hasc hf hst
    refine ⟨s', q, ⟨T', h1, h2, ?_⟩, fun j hj _ => h3 j ((hmem j).mp hj), fun j hj => ?_⟩
    · simp only [Spec.splayStep] at hst
      cases hm : Spec.member cmp k T.inorder <;> rw [hm] at hst <;> simp only [Option.some.injEq, Prod.mk.injEq] at hst <;> rw [← hst.1]
      · exact hasc
      · exact hasc.sublist List.erase_sublist
    · by_cases hin : j ∈ T.ids
      · exact h4 j hin
      · rw [h3 j hin]; exact hj
  | find k =>
    simp only [Spec.splayStep, Option.some.injEq, Prod.mk.injEq] at hst
    obtain ⟨rfl, rfl⟩ := hst
    obtain ⟨s', T', q, h1, h2⟩ := spFind_spec hc (k := k) (fuel := fuel) g hasc hf
    exact ⟨s', q, ⟨T', h1.fresh, h2, hasc⟩, fun j hj _ => same h1 h2 j hj, live h1⟩
  | next i =>
    simp only [Spec.splayStep] at hst
    split at hst
    · next hin =>
      simp only [Option.some.injEq, Prod.mk.injEq] at hst
      obtain ⟨rfl, rfl⟩ := hst
      obtain ⟨s', T', q, h1, h2⟩ := spNext_spec hc (fuel := fuel) g hasc hf hin
      exact ⟨s', q, ⟨T', h1.fresh, h2, hasc⟩, fun j hj _ => same h1 h2 j hj, live h1⟩
    · cases hst
  | min =>
    simp only [Spec.splayStep, Option.some.injEq, Prod.mk.injEq] at hst
    obtain ⟨rfl, rfl⟩ := hst
    obtain ⟨s', T', q, h1, h2⟩ := spMinmax_spec (fuel := fuel) true g hf
    exact ⟨s', q, ⟨T', h1.fresh, h2, hasc⟩, fun j hj _ => same h1 h2 j hj, live h1⟩
  | max =>
    simp only [Spec.splayStep, Option.some.injEq, Prod.mk.injEq] at hst
    obtain ⟨rfl, rfl⟩ := hst
    obtain ⟨s', T', q, h1, h2⟩ := spMinmax_spec (fuel := fuel) false g hf
    exact ⟨s', q, ⟨T', h1.fresh, h2, hasc⟩, fun j hj _ => same h1 h2 j hj, live h1⟩

theorem splayStep_sub {cmp : Nat → Nat → Int} {xs ys : List Nat} {op : SpOp} {r} (h : Spec.splayStep cmp xs op = some (ys, r)) : ∀ y ∈ ys, y ∈ xs ∨ op = .insert y := by
  intro y hy
  cases op with
  | insert i =>
    simp only [Spec.splayStep] at h
    cases hm : Spec.member cmp i xs <;> rw [hm] at h <;> simp only [Option.some.injEq, Prod.mk.injEq] at h <;> rw [← h.1] at hy
    · simp only [List.mem_append, List.mem_filter, List.mem_cons] at hy
      rcases hy with h | h | h
      · exact .inl h.1
      · exact .inr (by rw [h])
      · exact .inl h.1
    · exact .inl hy
  | remove k =>
    simp only [Spec.splayStep] at h
    cases hm : Spec.member cmp k xs <;> rw [hm] at h <;> simp only [Option.some.injEq, Prod.mk.injEq] at h <;> rw [← h.1] at hy
    · exact .inl hy
    · exact .inl (List.mem_of_mem_erase hy)
  | next i =>
    simp only [Spec.splayStep] at h
    split at h
    · simp only [Option.some.injEq, Prod.mk.injEq] at h; rw [← h.1] at hy; exact .inl hy
    · cases h
  | find k => simp only [Spec.splayStep, Option.some.injEq, Prod.mk.injEq] at h; rw [← h.1] at hy; exact .inl hy
  | min => simp only [Spec.splayStep, Option.some.injEq, Prod.mk.injEq] at h; rw [← h.1] at hy; exact .inl hy
  | max => simp only [Spec.splayStep, Option.some.injEq, Prod.mk.injEq] at h; rw [← h.1] at hy; exact .inl hy

theorem splayStep_length {cmp : Nat → Nat → Int} {xs ys : List Nat} {op : SpOp} {r} (h : Spec.splayStep cmp xs op = some (ys, r)) : ys.length ≤ xs.length + 1 := by
  cases op with
  | insert i => exact setStep_length (op := .insert i) h
  | remove k =>
    simp only [Spec.splayStep] at h
    cases hm : Spec.member cmp k xs <;> rw [hm] at h <;> simp only [Option.some.injEq, Prod.mk.injEq] at h <;> rw [← h.1]
    · omega
    · rename_i x
      have := List.length_erase_le (a := x) (l := xs)
      omega
  | next i =>
    simp only [Spec.splayStep] at h
    split at h
    · simp only [Option.some.injEq, Prod.mk.injEq] at h; rw [← h.1]; omega
    · cases h
  | find k => simp only [Spec.splayStep, Option.some.injEq, Prod.mk.injEq] at h; rw [← h.1]; omega
  | min => simp only [Spec.splayStep, Option.some.injEq, Prod.mk.injEq] at h; rw [← h.1]; omega
  | max => simp only [Spec.splayStep, Option.some.injEq, Prod.mk.injEq] at h; rw [← h.1]; omega

theorem spRun_spec {cmp : Nat → Nat → Int} (hc : Spec.Compares cmp) {fuel : Nat} : ∀ {ops : List SpOp} {s : SpMem} {xs ys : List Nat} {rs}, SpSet cmp s xs →
    (∀ i, .insert i ∈ ops → ∃ e, s.ent i = some e) → Spec.splayRun cmp ops xs = some (ys, rs) → xs.length + ops.length ≤ fuel →
    ∃ s', spRun cmp fuel ops s = ok (s', rs) ∧ SpSet cmp s' ys ∧ (∀ j, j ∉ xs → .insert j ∉ ops → s'.ent j = s.ent j) ∧ (∀ j, (∃ e, s.ent j = some e) → ∃ e, s'.ent j = some e)
  | [], s, xs, ys, rs, h, _, hr, _ => by
    simp only [Spec.splayRun, Option.some.injEq, Prod.mk.injEq] at hr
    obtain ⟨rfl, rfl⟩ := hr
    exact ⟨s, rfl, h, fun _ _ _ => rfl, fun _ h => h⟩
  | op :: ops, s, xs, zs, rs, h, he, hr, hf => by
    simp only [Spec.splayRun, Option.bind_eq_bind] at hr
    obtain ⟨⟨ys, r⟩, h1, hr⟩ := Option.bind_eq_some_iff.mp hr
    obtain ⟨⟨zs', rs'⟩, h2, hr⟩ := Option.bind_eq_some_iff.mp hr
    simp only [Option.some.injEq, Prod.mk.injEq] at hr
    obtain ⟨rfl, rfl⟩ := hr
    simp only [List.length_cons] at hf
    have hlen := splayStep_length h1
    obtain ⟨s1, q1, g1, f1, d1⟩ := spStep_spec hc h (fun i hi => he i (by simp [hi])) h1 (fuel := fuel) (by omega)
    obtain ⟨s2, q2, g2, f2, d2⟩ := spRun_spec hc g1 (fun i hi => d1 _ (he i (by simp [hi]))) h2 (fuel := fuel) (by omega)
    refine ⟨s2, by simp only [spRun, q1, ok_bind, q2], g2, ?_, fun j hj => d2 j (d1 j hj)⟩
    intro j hj hops
    have hj1 : op ≠ .insert j := by rintro rfl; exact hops (by simp)
    rw [f2 j (fun hy => ?_) (fun ho => hops (by simp [ho])), f1 j hj hj1]
    exact (splayStep_sub h1 j hy).elim hj hj1

theorem spSet_empty {cmp : Nat → Nat → Int} {s : SpMem} (h : s.root = none) : SpSet cmp s [] :=
  ⟨leaf, ⟨h, trivial, by simp [ids], fun _ _ => rfl⟩, rfl, .nil⟩

/-- The states a tree can be in: after a series of calls on an empty one, with what an ordered set would hold then. -/
structure SpReached (cmp : Nat → Nat → Int) (s : SpMem) (xs : List Nat) : Prop where
  calls : ∃ s0 ops fuel rs, s0.root = none ∧ (∀ i, .insert i ∈ ops → s0.ent i ≠ none) ∧ ops.length ≤ fuel ∧ spRun cmp fuel ops s0 = ok (s, rs) ∧
    Spec.splayRun cmp ops [] = some (xs, rs)

theorem spReached_set {cmp : Nat → Nat → Int} (hc : Spec.Compares cmp) {s : SpMem} {xs : List Nat} (h : SpReached cmp s xs) : SpSet cmp s xs := by
  obtain ⟨s0, ops, fuel, rs, h1, h2, h3, h4, h5⟩ := h.calls
  obtain ⟨s', q, g, _⟩ := spRun_spec hc (spSet_empty h1) (fun i hi => Option.ne_none_iff_exists'.mp (h2 i hi)) h5 (fuel := fuel) (by simpa using h3)
  rw [h4, Outcome.ok.injEq, Prod.mk.injEq] at q
  rw [q.1]
  exact g

theorem spVisit_spec {cmp : Nat → Nat → Int} (hc : Spec.Compares cmp) {fuel : Nat} : ∀ {n : Nat} {ys as : List Nat} {s : SpMem}, SpSet cmp s (as ++ ys) → (as ++ ys).length ≤ fuel → ys.length < n →
    ∃ s', spVisit cmp fuel n s ys.head? = ok (s', ys) ∧ SpSet cmp s' (as ++ ys) ∧ ∀ j, j ∉ as ++ ys → s'.ent j = s.ent j
  | 0, _, _, _, _, _, hn => by omega
  | n + 1, [], as, s, h, _, _ => ⟨s, rfl, h, fun _ _ => rfl⟩
  | n + 1, y :: ys, as, s, h, hf, hn => by
    have hasc : Spec.Ascending cmp (as ++ y :: ys) := by obtain ⟨T, _, _, ha⟩ := h; exact ha
    have hfind : ((as ++ y :: ys).find? fun x => cmp y x < 0) = ys.head? := by
      simp only [Spec.Ascending, List.pairwise_append, List.pairwise_cons, List.mem_cons] at hasc
      rw [List.find?_append, List.find?_eq_none.mpr (fun x hx => by have := (hc.anti x y).mp (hasc.2.2 x hx y (.inl rfl)); simp; omega), Option.none_or, List.find?_cons]
      simp only [cmp_self hc y, Int.lt_irrefl, decide_false]
      cases ys with
      | nil => rfl
      | cons z zs =>
        rw [List.find?_cons]
        simp only [hasc.2.1.1 z (by simp), decide_true, List.head?_cons]
    obtain ⟨s1, q1, g1, f1, _⟩ := spStep_spec hc h (op := .next y) (fuel := fuel) (fun i hi => by cases hi) (ys := as ++ y :: ys) (r := ys.head?) (by
      simp only [Spec.splayStep]
      rw [if_pos (by simp), hfind]) hf
    have q1 : spNext cmp fuel s y = ok (s1, ys.head?) := q1
    obtain ⟨s2, q2, g2, f2⟩ := spVisit_spec hc (n := n) (ys := ys) (as := as ++ [y]) (s := s1) (by simpa using g1) (by simpa using hf) (by simp at hn; omega)
    refine ⟨s2, by simp only [List.head?_cons, spVisit, q1, ok_bind, q2], by simpa using g2, fun j hj => ?_⟩
    rw [f2 j (by simpa using hj), f1 j hj (by simp)]

/-- **C100**: any series of calls on an empty splay tree does to it what it does to an ordered set: nothing is undefined, no loop goes on for ever, every call returns what it should, and
elements that are not inserted are not touched. -/
theorem C100_history {cmp : Nat → Nat → Int} (hc : Spec.Compares cmp) {ops : List SpOp} {s : SpMem} {xs : List Nat} {rs} {fuel : Nat} (hroot : s.root = none)
    (he : ∀ i, .insert i ∈ ops → s.ent i ≠ none) (hr : Spec.splayRun cmp ops [] = some (xs, rs)) (hf : ops.length ≤ fuel) :
    ∃ s', spRun cmp fuel ops s = ok (s', rs) ∧ Spec.Ascending cmp xs ∧ ∀ i, .insert i ∉ ops → s'.ent i = s.ent i := by
  obtain ⟨s', q, ⟨_, _, _, g⟩, f, _⟩ := spRun_spec hc (spSet_empty hroot) (fun i hi => Option.ne_none_iff_exists'.mp (he i hi)) hr (fuel := fuel) (by simpa using hf)
  exact ⟨s', q, g, fun i hi => f i (by simp) hi⟩

/-- **C100**: a further call on a tree of `n` elements returns what it should, its loops run at most `n` times each, and it writes to no element but the members and the one it inserts. -/
theorem C100_call {cmp : Nat → Nat → Int} (hc : Spec.Compares cmp) {s : SpMem} {xs ys : List Nat} {op : SpOp} {r fuel} (h : SpReached cmp s xs)
    (he : ∀ i, op = .insert i → s.ent i ≠ none) (hs : Spec.splayStep cmp xs op = some (ys, r)) (hf : xs.length ≤ fuel) :
    ∃ s', spStep cmp fuel s op = ok (s', r) ∧ ∀ j, j ∉ xs → op ≠ .insert j → s'.ent j = s.ent j := by
  obtain ⟨s', q, _, f, _⟩ := spStep_spec hc (spReached_set hc h) (fun i hi => Option.ne_none_iff_exists'.mp (he i hi)) hs hf
  exact ⟨s', q, f⟩

/-- **C100**: the loop over all elements visits every element once, in order, though every step rearranges the tree; afterwards the tree still holds the same elements, in the sense that
any further series of calls returns what it should. -/
theorem C100_foreach {cmp : Nat → Nat → Int} (hc : Spec.Compares cmp) {s : SpMem} {xs : List Nat} {fuel n} (h : SpReached cmp s xs) (hf : xs.length ≤ fuel) (hn : xs.length < n) :
    ∃ s', spForeach cmp fuel n s = ok (s', xs) ∧ (∀ j, j ∉ xs → s'.ent j = s.ent j) ∧
      ∀ ops ys rs, (∀ i, .insert i ∈ ops → s'.ent i ≠ none) → Spec.splayRun cmp ops xs = some (ys, rs) → ∀ fuel', xs.length + ops.length ≤ fuel' →
        ∃ s'', spRun cmp fuel' ops s' = ok (s'', rs) := by
  have g := spReached_set hc h
  obtain ⟨s1, q1, g1, f1, _⟩ := spStep_spec hc g (op := .min) (fuel := fuel) (fun i hi => by cases hi) (ys := xs) (r := xs.head?) rfl hf
  have q1 : spMinmax fuel s true = ok (s1, xs.head?) := q1
  obtain ⟨s2, q2, g2, f2⟩ := spVisit_spec hc (n := n) (ys := xs) (as := []) (fuel := fuel) (s := s1) (by simpa using g1) (by simpa using hf) hn
  refine ⟨s2, by simp only [spForeach, q1, ok_bind, q2], fun j hj => by rw [f2 j (by simpa using hj), f1 j hj (by simp)], ?_⟩
  intro ops ys rs he hr fuel' hf'
  obtain ⟨s3, q3, _⟩ := spRun_spec hc (by simpa using g2) (fun i hi => Option.ne_none_iff_exists'.mp (he i hi)) hr hf'
  exact ⟨s3, q3⟩

/-! ## The hypotheses can be met -/

/-- Memory with a hundred elements and an empty head. -/
def spHundred : SpMem := ⟨none, fun i => if i < 100 then some ⟨some 77, some 78⟩ else none⟩

/-- A history. -/
def spHistory : List SpOp := [.insert 5, .insert 13, .insert 7, .insert 1, .insert 25, .insert 9, .insert 22, .find 33, .next 5, .remove 31, .remove 4, .min, .max, .insert 36]

theorem spHistory_set : Spec.splayRun digitCmp spHistory [] =
    some ([22, 13, 5, 36, 7, 9], [none, none, none, none, some 5, none, none, some 13, some 7, some 31, none, some 22, some 9, none]) := by decide +kernel

theorem spHistory_alloc : ∀ i, .insert i ∈ spHistory → spHundred.ent i ≠ none := by
  intro i hi
  simp only [spHistory, List.mem_cons, SpOp.insert.injEq, reduceCtorEq, List.not_mem_nil, or_false, false_or] at hi
  rcases hi with rfl | rfl | rfl | rfl | rfl | rfl | rfl | rfl <;> decide

example : ∃ s', SpReached digitCmp s' [22, 13, 5, 36, 7, 9] ∧ ∃ s'', spForeach digitCmp 6 7 s' = ok (s'', [22, 13, 5, 36, 7, 9]) := by
  obtain ⟨s', h, _⟩ := C100_history digitCmp_compares (s := spHundred) (fuel := 14) rfl spHistory_alloc spHistory_set (by decide)
  have hr : SpReached digitCmp s' [22, 13, 5, 36, 7, 9] := ⟨_, _, _, _, rfl, spHistory_alloc, by decide, h, spHistory_set⟩
  obtain ⟨s'', q, _⟩ := C100_foreach digitCmp_compares (fuel := 6) (n := 7) hr (by decide) (by decide)
  exact ⟨s', hr, s'', q⟩

/-- **C100**, what does not hold: `SPLAY_REMOVE` returns its argument, which need not be the element that it took out.  Here 25 was never inserted, 5 is taken out, and the caller, who gets
25 back, has lost it. -/
theorem C100_remove_violated : ∃ s', spRun digitCmp 3 [.insert 5, .remove 25, .min] spHundred = ok (s', [none, some 25, none]) := by
  obtain ⟨s', h, _⟩ := C100_history digitCmp_compares (s := spHundred) (fuel := 3) (ops := [.insert 5, .remove 25, .min]) (xs := []) (rs := [none, some 25, none]) rfl (by
    intro i hi
    simp only [List.mem_cons, SpOp.insert.injEq, reduceCtorEq, List.not_mem_nil, or_false] at hi
    subst hi; decide) (by decide) (by decide)
  exact ⟨s', h⟩

end Wdns
