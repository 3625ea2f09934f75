import Verif.Lemmas.RbOps
import Verif.Model.Splay

/-!
# Lemmas: splay trees in memory
-/

namespace Wdns
open Outcome RbT

/-- The entry with `x` on side `d` and `y` on the other. -/
def SpEnt.of (d : Bool) (x y : Option Nat) : SpEnt := if d then ⟨x, y⟩ else ⟨y, x⟩

@[simp] theorem SpEnt.of_child (d x y) : (SpEnt.of d x y).child d = x := by cases d <;> rfl
@[simp] theorem SpEnt.of_other (d x y) : (SpEnt.of d x y).child (!d) = y := by cases d <;> rfl
@[simp] theorem SpEnt.of_setChild (d x y v) : (SpEnt.of d x y).setChild d v = .of d v y := by cases d <;> rfl
@[simp] theorem SpEnt.of_setOther (d x y v) : (SpEnt.of d x y).setChild (!d) v = .of d x v := by cases d <;> rfl
theorem SpEnt.of_swap (d x y) : SpEnt.of (!d) x y = .of d y x := by cases d <;> rfl
@[simp] theorem SpEnt.child_setChild (e : SpEnt) (d v) : (e.setChild d v).child d = v := by cases d <;> rfl
@[simp] theorem SpEnt.child_setOther (e : SpEnt) (d v) : (e.setChild d v).child (!d) = e.child (!d) := by cases d <;> rfl
@[simp] theorem SpEnt.other_setChild (e : SpEnt) (d v) : (e.setChild (!d) v).child d = e.child d := by cases d <;> rfl

/-- The tree is in memory. -/
def SpRep (m : Nat → Option SpEnt) : RbT → Prop
  | .leaf => True
  | .node _ l i r => m i = some ⟨l.ptr, r.ptr⟩ ∧ SpRep m l ∧ SpRep m r

theorem spRep_mk {m d red a i b} : SpRep m (.mk d red a i b) ↔ m i = some (.of d a.ptr b.ptr) ∧ SpRep m a ∧ SpRep m b := by
  cases d
  · show _ ∧ _ ∧ _ ↔ _
    exact ⟨fun h => ⟨h.1, h.2.2, h.2.1⟩, fun h => ⟨h.1, h.2.2, h.2.1⟩⟩
  · exact Iff.rfl

theorem SpRep.congr {m m' : Nat → Option SpEnt} : ∀ {t : RbT}, SpRep m t → (∀ i ∈ t.ids, m' i = m i) → SpRep m' t
  | .leaf, _, _ => trivial
  | .node red l i r, ⟨h1, h2, h3⟩, h => ⟨by rw [h i (by simp [ids])]; exact h1, h2.congr fun j hj => h j (by simp [ids, hj]), h3.congr fun j hj => h j (by simp [ids, hj])⟩

theorem SpRep.mem {m : Nat → Option SpEnt} : ∀ {t : RbT}, SpRep m t → ∀ i ∈ t.ids, ∃ e, m i = some e
  | .leaf, _, i, hi => by cases hi
  | .node red l j r, ⟨h1, h2, h3⟩, i, hi => by
    simp only [ids, List.mem_cons, List.mem_append] at hi
    rcases hi with rfl | hi | hi
    · exact ⟨_, h1⟩
    · exact h2.mem i hi
    · exact h3.mem i hi

/-- A chain of linked elements, from the pointer `top` down to the pointer `p` in the hole. -/
def SpC (m : Nat → Option SpEnt) (top : Option Nat) : List RbFrame → Option Nat → Prop
  | [], p => top = p
  | f :: c, p => m f.i = some (.of f.d p f.sib.ptr) ∧ SpRep m f.sib ∧ SpC m top c (some f.i)

theorem SpC.congr {m m' : Nat → Option SpEnt} {top} : ∀ {c : List RbFrame} {p}, SpC m top c p → (∀ i ∈ cids c, m' i = m i) → SpC m' top c p
  | [], _, h, _ => h
  | f :: c, p, ⟨h1, h2, h3⟩, h =>
    ⟨by rw [h _ (by simp [cids])]; exact h1, h2.congr fun j hj => h j (by simp [cids, hj]), h3.congr fun j hj => h j (by simp [cids, hj])⟩

theorem SpC.plug {m : Nat → Option SpEnt} {top} : ∀ {c : List RbFrame} {t : RbT}, SpC m top c t.ptr → SpRep m t → SpRep m (plug c t) ∧ top = (plug c t).ptr
  | [], _, h, ht => ⟨ht, h⟩
  | f :: c, t, ⟨h1, h2, h3⟩, ht => SpC.plug (c := c) (by simpa using h3) (spRep_mk.mpr ⟨h1, ht, h2⟩)

theorem sp_get {s : SpMem} {i : Nat} {e : SpEnt} (h : s.ent i = some e) : s.get (some i) = ok e := by simp [SpMem.get, h]

theorem sp_set {s : SpMem} {i : Nat} {e : SpEnt} (h : s.ent i = some e) (d v) :
    s.setChild (some i) d v = ok ⟨s.root, fun j => if j = i then some (e.setChild d v) else s.ent j⟩ := by simp [SpMem.setChild, h]

/-- The state of the loop: two chains and the tree that is still to be searched; otherwise memory is `m0`. -/
structure SpHolds (m0 : Nat → Option SpEnt) (st : SpState) (c : Bool → List RbFrame) (t : RbT) : Prop where
  root : st.mem.root = t.ptr
  tree : SpRep st.mem.ent t
  hook : ∀ d, st.hook d = topOf (c d)
  side : ∀ d, ∀ f ∈ c d, f.d = d
  chain : ∀ d, ∃ q, SpC st.mem.ent (st.node.child d) (c d) q
  nodup : (cids (c true) ++ (cids (c false) ++ t.ids)).Nodup
  frame : ∀ i, i ∉ cids (c true) ++ (cids (c false) ++ t.ids) → st.mem.ent i = m0 i

theorem both_perm (d : Bool) (c : Bool → List RbFrame) (xs : List Nat) :
    (cids (c true) ++ (cids (c false) ++ xs)).Perm (cids (c d) ++ (cids (c (!d)) ++ xs)) := by
  cases d
  · simp only [Bool.not_false, ← List.append_assoc]
    exact List.Perm.append_right _ List.perm_append_comm
  · exact .refl _

/-- The pointer in the hole of one chain is set. -/
theorem hooked_holds {m0 st c t} {d : Bool} {v : Option Nat} (h : SpHolds m0 st c t) :
    ∃ st', st.setHooked (st.hook d) d v = ok st' ∧ SpHolds m0 st' c t ∧ SpC st'.mem.ent (st'.node.child d) (c d) v ∧ st'.mem.root = st.mem.root ∧
      (∀ i, i ∉ cids (c d) → st'.mem.ent i = st.mem.ent i) ∧ st'.node.child (!d) = st.node.child (!d) := by
  have hn := (both_perm d c t.ids).nodup_iff.mp h.nodup
  obtain ⟨q, hq⟩ := h.chain d
  rw [h.hook d]
  cases hc : c d with
  | nil =>
    refine ⟨{ st with node := st.node.setChild d v }, rfl, ⟨h.root, h.tree, h.hook, h.side, ?_, h.nodup, h.frame⟩, ?_, rfl, fun _ _ => rfl, ?_⟩
    · intro e
      by_cases he : e = d
      · subst he; exact ⟨v, by rw [hc]; simp [SpC]⟩
      · have he' : e = !d := by revert he; cases e <;> cases d <;> decide
        subst he'
        obtain ⟨q', hq'⟩ := h.chain (!d)
        exact ⟨q', by simpa using hq'⟩
    · simp [SpC]
    · simp
  | cons f cs =>
    rw [hc] at hq
    obtain ⟨h1, h2, h3⟩ := hq
    rw [hc] at hn
    have hfd : f.d = d := h.side d f (by rw [hc]; simp)
    subst hfd
    simp only [cids, List.cons_append, List.nodup_cons, List.mem_append, not_or] at hn
    obtain ⟨⟨⟨n1, n2⟩, n3, n4⟩, _⟩ := hn
    let m : SpMem := ⟨st.mem.root, fun j => if j = f.i then some (.of f.d v f.sib.ptr) else st.mem.ent j⟩
    have hm : st.mem.setChild (some f.i) f.d v = ok m := by rw [sp_set h1, SpEnt.of_setChild]
    have ho : ∀ j, j ≠ f.i → m.ent j = st.mem.ent j := fun j hj => by simp only [m]; rw [if_neg hj]
    have hch : SpC m.ent (st.node.child f.d) (f :: cs) v :=
      ⟨by simp [m], h2.congr fun j hj => ho j (by rintro rfl; exact n1 hj), h3.congr fun j hj => ho j (by rintro rfl; exact n2 hj)⟩
    refine ⟨{ st with mem := m }, ?_, ⟨h.root, ?_, h.hook, h.side, ?_, h.nodup, ?_⟩, hch, rfl, ?_, rfl⟩
    · simp only [topOf, SpState.setHooked, hm, ok_bind]
    · exact h.tree.congr fun j hj => ho j (by rintro rfl; exact n4 hj)
    · intro e
      by_cases he : e = f.d
      · subst he; exact ⟨v, by rw [hc]; exact hch⟩
      · have he' : e = !f.d := by revert he; cases e <;> cases f.d <;> decide
        subst he'
        obtain ⟨q', hq'⟩ := h.chain (!f.d)
        exact ⟨q', hq'.congr fun j hj => ho j (by rintro rfl; exact n3 hj)⟩
    · intro i hi
      show m.ent i = _
      rw [ho i ?_]
      · exact h.frame i hi
      · rintro rfl
        exact hi ((both_perm f.d c t.ids).mem_iff.mpr (by simp [hc, cids]))
    · intro i hi
      exact ho i (by rintro rfl; exact hi (by simp [cids]))

/-- One more element is linked to a chain. -/
theorem link_holds {m0 st c d red a y g} (h : SpHolds m0 st c (.mk d red a y g)) :
    ∃ st', st.link d = ok st' ∧ SpHolds m0 st' (fun e => if e = d then ⟨d, red, y, g⟩ :: c d else c e) a := by
  obtain ⟨st1, q1, h1, hc1, r1, _⟩ := hooked_holds (d := d) (v := st.mem.root) h
  obtain ⟨e1, ha, hg⟩ := spRep_mk.mp h1.tree
  have hr : st1.mem.root = some y := by rw [h1.root, ptr_mk]
  rw [h.root, ptr_mk] at hc1
  have hne : (!d) ≠ d := by cases d <;> decide
  have hp : (cids (⟨d, red, y, g⟩ :: c d) ++ (cids (c (!d)) ++ a.ids)).Perm (cids (c d) ++ (cids (c (!d)) ++ (RbT.mk d red a y g).ids)) := by
    refine List.Perm.trans ?_ (List.Perm.append_left _ (List.Perm.append_left _ (ids_mk ..).symm))
    simp only [cids, List.cons_append, List.append_assoc]
    rw [List.perm_iff_count]
    intro x
    simp only [List.count_cons, List.count_append]
    omega
  let c' : Bool → List RbFrame := fun e => if e = d then ⟨d, red, y, g⟩ :: c d else c e
  have hcd : c' d = ⟨d, red, y, g⟩ :: c d := if_pos rfl
  have hcn : c' (!d) = c (!d) := if_neg hne
  have hp2 : (cids (c' true) ++ (cids (c' false) ++ a.ids)).Perm (cids (c true) ++ (cids (c false) ++ (RbT.mk d red a y g).ids)) := by
    refine (both_perm d c' _).trans ?_
    rw [hcd, hcn]
    exact hp.trans (both_perm d c _).symm
  refine ⟨⟨{ st1.mem with root := a.ptr }, st1.node, fun x => if x = d then some y else st1.hook x⟩, ?_, ⟨rfl, ha, ?_, ?_, ?_, hp2.nodup_iff.mpr h.nodup, fun i hi => h1.frame i fun hn => hi (hp2.mem_iff.mpr hn)⟩⟩
  · simp only [SpState.link, q1, ok_bind, hr, sp_get e1, SpEnt.of_child]
  · intro e
    show (if e = d then _ else _) = topOf (c' e)
    by_cases he : e = d
    · subst he; rw [if_pos rfl, hcd]; rfl
    · rw [if_neg he, h1.hook e]; simp only [c']; rw [if_neg he]
  · intro e f hf
    by_cases he : e = d
    · subst he
      have hf : f ∈ c' e := hf
      rw [hcd] at hf
      rcases List.mem_cons.mp hf with rfl | hf
      · rfl
      · exact h.side e f hf
    · have hf : f ∈ c' e := hf
      simp only [c'] at hf
      rw [if_neg he] at hf
      exact h.side e f hf
  · intro e
    by_cases he : e = d
    · subst he
      refine ⟨a.ptr, ?_⟩
      show SpC st1.mem.ent _ (c' e) _
      rw [hcd]
      exact ⟨e1, hg, hc1⟩
    · obtain ⟨q, hq⟩ := h1.chain e
      refine ⟨q, ?_⟩
      show SpC st1.mem.ent _ (c' e) _
      simp only [c']
      rw [if_neg he]
      exact hq

/-- A rotation. -/
theorem spRotate_holds {m0 st c d r1 r2 a x b y g} (h : SpHolds m0 st c (.mk d r1 (.mk d r2 a x b) y g)) :
    ∃ m, st.mem.rotate d (some x) = ok m ∧ SpHolds m0 { st with mem := m } c (.mk d r2 a x (.mk d r1 b y g)) := by
  obtain ⟨ey, h1, hg⟩ := spRep_mk.mp h.tree
  obtain ⟨ex, ha, hb⟩ := spRep_mk.mp h1
  have hr : st.mem.root = some y := by rw [h.root, ptr_mk]
  have hp : (RbT.mk d r1 (.mk d r2 a x b) y g).ids.Perm (RbT.mk d r2 a x (.mk d r1 b y g)).ids := by
    refine (ids_mk ..).trans (List.Perm.trans ?_ (ids_mk ..).symm)
    refine (List.Perm.cons _ (List.Perm.append_right _ (ids_mk ..))).trans (List.Perm.trans ?_ (List.Perm.cons _ (List.Perm.append_left _ (ids_mk ..).symm)))
    rw [List.perm_iff_count]
    intro z
    simp only [List.count_cons, List.count_append]
    omega
  have hp2 := (List.Perm.append_left (cids (c true)) (List.Perm.append_left (cids (c false)) hp))
  have hn := (List.Perm.append_left (cids (c true)) (List.Perm.append_left (cids (c false)) ((ids_mk ..).trans (List.Perm.cons _ (List.Perm.append_right _ (ids_mk ..)))))).nodup_iff.mp h.nodup
  simp only [List.cons_append, List.append_assoc, List.nodup_append, List.nodup_cons, List.mem_append, List.mem_cons, not_or] at hn
  obtain ⟨nt, ⟨nf, ⟨⟨yx, ya, yb, yg⟩, ⟨xa, xb, xg⟩, na⟩, fj⟩, tj⟩ := hn
  let s1 : SpMem := ⟨some y, fun j => if j = y then some (.of d b.ptr g.ptr) else st.mem.ent j⟩
  have q1 : st.mem.setChild (some y) d b.ptr = ok s1 := by rw [sp_set ey, SpEnt.of_setChild, hr]
  have x1 : s1.ent x = some (.of d a.ptr b.ptr) := by simp only [s1]; rw [if_neg (fun h => yx h.symm)]; exact ex
  let s2 : SpMem := ⟨some y, fun j => if j = x then some (.of d a.ptr (some y)) else s1.ent j⟩
  have q2 : s1.setChild (some x) (!d) (some y) = ok s2 := by rw [sp_set x1, SpEnt.of_setOther]
  have ho : ∀ j, j ≠ x → j ≠ y → s2.ent j = st.mem.ent j := fun j h1 h2 => by simp only [s2, s1]; rw [if_neg h1, if_neg h2]
  refine ⟨{ s2 with root := some x }, ?_, ⟨by simp, ?_, h.hook, h.side, ?_, hp2.nodup_iff.mp h.nodup, ?_⟩⟩
  · simp only [SpMem.rotate, sp_get ex, ok_bind, SpEnt.of_other, hr, q1]
    show (do let s ← s1.setChild (some x) (!d) (some y); _) = _
    rw [q2]; rfl
  · refine spRep_mk.mpr ⟨?_, ?_, spRep_mk.mpr ⟨?_, ?_, ?_⟩⟩
    · simp [s2]
    · exact ha.congr fun j hj => ho j (by rintro rfl; exact xa hj) (by rintro rfl; exact ya hj)
    · simp only [s2, s1]; rw [if_neg yx]; simp
    · exact hb.congr fun j hj => ho j (by rintro rfl; exact xb hj) (by rintro rfl; exact yb hj)
    · exact hg.congr fun j hj => ho j (by rintro rfl; exact xg hj) (by rintro rfl; exact yg hj)
  · intro e
    obtain ⟨q, hq⟩ := h.chain e
    refine ⟨q, hq.congr fun j hj => ?_⟩
    have : j ≠ x ∧ j ≠ y := by
      cases e
      · exact ⟨fj j hj x (.inr (.inl rfl)), fj j hj y (.inl rfl)⟩
      · exact ⟨tj j hj x (.inr (.inr (.inl rfl))), tj j hj y (.inr (.inl rfl))⟩
    exact ho j this.1 this.2
  · intro i hi
    have hi := fun hn => hi (hp2.mem_iff.mp hn)
    show s2.ent i = _
    rw [ho i ?_ ?_]
    · exact h.frame i hi
    · rintro rfl; exact hi (by simp [mem_mk])
    · rintro rfl; exact hi (by simp [mem_mk])

/-- One turn of the loop, up to the link. -/
theorem spTurn_spec {m0 st c d red a y g} {cmp : Nat → Int} (h : SpHolds m0 st c (.mk d red a y g)) (hy : onSide d (cmp y) = true) :
    ∃ m brk red' a' y' g', spTurn cmp st.mem d = ok (m, brk) ∧ SpHolds m0 { st with mem := m } c (.mk d red' a' y' g') ∧ ord d (.mk d red' a' y' g') = ord d (.mk d red a y g) ∧
      onSide d (cmp y') = true ∧ (brk = true ↔ a' = leaf) ∧ a'.depth < (RbT.mk d red a y g).depth := by
  obtain ⟨ey, ha, hg⟩ := spRep_mk.mp h.tree
  have hr : st.mem.root = some y := by rw [h.root, ptr_mk]
  have hda : a.depth < (RbT.mk d red a y g).depth := by cases d <;> simp [mk, depth] <;> omega
  by_cases hl : a = leaf
  · subst hl
    refine ⟨st.mem, true, red, leaf, y, g, ?_, h, rfl, hy, by simp, hda⟩
    simp [spTurn, hr, sp_get ey, ptr]
  · obtain ⟨r2, a, x, b, rfl⟩ := exists_mk d hl
    by_cases hx : onSide d (cmp x) = true
    · obtain ⟨m, q, h'⟩ := spRotate_holds h
      obtain ⟨ex, _⟩ := spRep_mk.mp h'.tree
      have hr' : m.root = some x := by have := h'.root; rw [ptr_mk] at this; exact this
      refine ⟨m, decide (a = leaf), r2, a, x, _, ?_, h', by simp [ord_mk], hx, by simp, ?_⟩
      · have ex : m.ent x = _ := ex
        simp only [spTurn, hr, sp_get ey, ok_bind, SpEnt.of_child, ptr_mk, hx, if_true, q, hr', sp_get ex]
        congr 3
        cases a <;> simp [ptr]
      · have : a.depth < (RbT.mk d r2 a x b).depth := by cases d <;> simp [mk, depth] <;> omega
        omega
    · refine ⟨st.mem, false, red, _, y, g, ?_, h, rfl, hy, by simp [hl], hda⟩
      simp only [spTurn, hr, sp_get ey, ok_bind, SpEnt.of_child, ptr_mk, hx, Bool.false_eq_true, if_false]

/-- The comparison values fall from left to right: after one that is not above zero all are below zero, and before one that is not below zero all are above zero. -/
def SpMono (cmp : Nat → Int) (xs : List Nat) : Prop := xs.Pairwise fun x y => (cmp x ≤ 0 → cmp y < 0) ∧ (0 ≤ cmp y → 0 < cmp x)

/-- All elements, in order. -/
def spAll (c : Bool → List RbFrame) (t : RbT) : List Nat := before true (c false) ++ t.inorder ++ after true (c true)

theorem spLoop_spec {cmp : Nat → Int} : ∀ (fuel : Nat) {m0 st c} {t : RbT}, SpHolds m0 st c t → t ≠ leaf → SpMono cmp (spAll c t) → t.depth ≤ fuel →
    (∀ x ∈ before true (c false), 0 < cmp x) → (∀ x ∈ after true (c true), cmp x < 0) →
    ∃ st' c' red l r g, spLoop cmp fuel st = ok st' ∧ SpHolds m0 st' c' (node red l r g) ∧ spAll c' (node red l r g) = spAll c t ∧
      (∀ x ∈ before true (c' false), 0 < cmp x) ∧ (∀ x ∈ after true (c' true), cmp x < 0) ∧ (cmp r = 0 ∨ (cmp r < 0 ∧ l = leaf) ∨ (0 < cmp r ∧ g = leaf)) := by
  intro fuel
  induction fuel with
  | zero =>
    intro m0 st c t _ hne _ hf
    cases t with
    | leaf => exact absurd rfl hne
    | node => simp [depth] at hf
  | succ fuel ih =>
    intro m0 st c t h hne hm hf hb ha
    cases t with
    | leaf => exact absurd rfl hne
    | node red l r g =>
      have hr : st.mem.root = some r := h.root
      by_cases h0 : cmp r = 0
      · exact ⟨st, c, red, l, r, g, by simp [spLoop, hr, h0], h, rfl, hb, ha, .inl h0⟩
      · obtain ⟨red0, a, y, b, hab⟩ := exists_mk (decide (cmp r < 0)) hne
        have hy : y = r := by have := congrArg ptr hab; rw [ptr_mk] at this; exact (Option.some.inj this).symm
        subst hy
        generalize hd : decide (cmp y < 0) = d at hab
        have hside : onSide d (cmp y) = true := by
          subst hd
          by_cases h1 : cmp y < 0
          · simp [onSide, h1]
          · simp [onSide, h1]; omega
        rw [hab] at h hm hf
        obtain ⟨m, brk, red', a', y', g', q, h', hord, hy', hbrk, hdep⟩ := spTurn_spec h hside
        have hin : (mk d red' a' y' g').inorder = (mk d red0 a y b).inorder := inorder_eq_of_ord hord
        have hall : spAll c (mk d red' a' y' g') = spAll c (node red l y g) := by rw [hab, spAll, spAll, hin]
        cases hbk : brk with
        | true =>
          have hleaf := hbrk.mp hbk
          subst hleaf
          have hst : spLoop cmp (fuel + 1) st = ok { st with mem := m } := by
            simp only [spLoop, hr, h0, if_false, hd, q, ok_bind, hbk, if_true]
          cases d with
          | true => exact ⟨_, c, red', leaf, y', g', hst, h', hall, hb, ha, .inr (.inl ⟨by simpa [onSide] using hy', rfl⟩)⟩
          | false => exact ⟨_, c, red', g', y', leaf, hst, h', hall, hb, ha, .inr (.inr ⟨by simpa [onSide] using hy', rfl⟩)⟩
        | false =>
          have hnl : a' ≠ leaf := fun hn => by have := hbrk.mpr hn; rw [hbk] at this; cases this
          obtain ⟨st2, q2, h2⟩ := link_holds h'
          have hst : spLoop cmp (fuel + 1) st = spLoop cmp fuel st2 := by
            simp only [spLoop, hr, h0, if_false, hd, q, ok_bind, hbk, Bool.false_eq_true, q2]
          rw [hst]
          have hall2 : spAll (fun e => if e = d then ⟨d, red', y', g'⟩ :: c d else c e) a' = spAll c (node red l y g) := by
            rw [← hall]
            cases d
            · simp [spAll, before, mk, inorder, ord_true]
            · simp [spAll, after, mk, inorder, ord_true]
          have hmono : SpMono cmp (spAll c (mk d red' a' y' g')) := by rw [hall, hab]; exact hm
          obtain ⟨st', c', red'', l', r', g'', z1, z2, z3, z4, z5, z6⟩ := ih h2 hnl (by rw [hall2, hab]; exact hm) (by omega) (by
            cases d
            · simp only [if_true, before, Bool.false_eq_true, if_false]
              intro x hx
              simp only [List.mem_append, List.mem_singleton, ord_true] at hx
              have hy0 : 0 < cmp y' := by simpa [onSide] using hy'
              rcases hx with hx | hx | rfl
              · exact hb x hx
              · simp only [SpMono, spAll, mk, Bool.false_eq_true, if_false, inorder, List.append_assoc, List.cons_append, List.pairwise_append, List.mem_append, List.mem_cons] at hmono
                exact (hmono.2.1.2.2 x hx y' (.inl rfl)).2 (by omega)
              · exact hy0
            · simpa using hb) (by
            cases d
            · simpa using ha
            · simp only [if_true, after]
              intro x hx
              simp only [List.mem_append, List.mem_cons, ord_true] at hx
              have hy0 : cmp y' < 0 := by simpa [onSide] using hy'
              rcases hx with rfl | hx | hx
              · exact hy0
              · simp only [SpMono, spAll, mk, if_true, inorder, List.append_assoc, List.cons_append, List.pairwise_append, List.mem_append, List.mem_cons, List.pairwise_cons] at hmono
                exact (hmono.2.1.2.1.1 x (.inl hx)).1 (by omega)
              · exact ha x hx)
          exact ⟨st', c', red'', l', r', g'', z1, z2, by rw [z3, hall2], z4, z5, z6⟩

/-- The tree in memory, with nothing else of memory changed since `m0`. -/
structure SpTree (m0 : Nat → Option SpEnt) (s : SpMem) (T : RbT) : Prop where
  root : s.root = T.ptr
  tree : SpRep s.ent T
  nodup : T.ids.Nodup
  frame : ∀ i, i ∉ T.ids → s.ent i = m0 i

theorem assemble_spec {m0 st c red l r g} (h : SpHolds m0 st c (node red l r g)) :
    ∃ s', st.assemble = ok s' ∧ SpTree m0 s' (node red (plug (c false) l) r (plug (c true) g)) := by
  have hr : st.mem.root = some r := h.root
  have e0 : st.mem.ent r = some ⟨l.ptr, g.ptr⟩ := h.tree.1
  obtain ⟨st1, q1, h1, c1, r1, o1, n1⟩ := hooked_holds (d := false) (v := l.ptr) h
  have e1 : st1.mem.ent r = some ⟨l.ptr, g.ptr⟩ := h1.tree.1
  obtain ⟨st2, q2, h2, c2, r2, o2, n2⟩ := hooked_holds (d := true) (v := g.ptr) h1
  have e2 : st2.mem.ent r = some ⟨l.ptr, g.ptr⟩ := h2.tree.1
  have hn := h.nodup
  simp only [ids, List.nodup_append, List.nodup_cons, List.mem_append, List.mem_cons, not_or] at hn
  obtain ⟨nt, ⟨nf, ⟨⟨rl, rg⟩, nl, ng, lg⟩, fj⟩, tj⟩ := hn
  have c1' : SpC st2.mem.ent (st2.node.child false) (c false) l.ptr := by
    rw [show st2.node.child false = st1.node.child false from n2]
    refine c1.congr fun j hj => o2 j fun hk => ?_
    exact tj j hk j (.inl hj) rfl
  obtain ⟨pl, tl⟩ := c1'.plug h2.tree.2.1
  obtain ⟨pg, tg⟩ := c2.plug h2.tree.2.2
  have hperm : (cids (c true) ++ (cids (c false) ++ (node red l r g).ids)).Perm (node red (plug (c false) l) r (plug (c true) g)).ids := by
    have p1 := plug_ids (c false) l
    have p2 := plug_ids (c true) g
    refine List.Perm.trans ?_ (List.Perm.cons r (p1.append p2))
    rw [List.perm_iff_count]
    intro z
    simp only [ids, List.count_cons, List.count_append]
    omega
  have hrl : r ∉ (plug (c false) l).ids ∧ r ∉ (plug (c true) g).ids := by
    have := hperm.nodup_iff.mp h.nodup
    simp only [ids, List.nodup_cons, List.mem_append, not_or] at this
    exact this.1
  let s3 : SpMem := ⟨some r, fun j => if j = r then some ⟨st2.node.right, g.ptr⟩ else st2.mem.ent j⟩
  let s4 : SpMem := ⟨some r, fun j => if j = r then some ⟨st2.node.right, st2.node.left⟩ else s3.ent j⟩
  have hr2 : st2.mem.root = some r := by rw [r2, r1, hr]
  have q3 : st2.mem.setChild (some r) true st2.node.right = ok s3 := by rw [sp_set e2, hr2]; rfl
  have e3 : s3.ent r = some ⟨st2.node.right, g.ptr⟩ := by simp [s3]
  have q4 : s3.setChild (some r) false st2.node.left = ok s4 := by rw [sp_set e3]; rfl
  have ho : ∀ j, j ≠ r → s4.ent j = st2.mem.ent j := fun j hj => by simp only [s4, s3]; rw [if_neg hj, if_neg hj]
  refine ⟨s4, ?_, ⟨rfl, ⟨?_, ?_, ?_⟩, hperm.nodup_iff.mp h.nodup, ?_⟩⟩
  · have hr1 : st1.mem.root = some r := by rw [r1, hr]
    simp only [SpState.assemble, hr, sp_get e0, ok_bind, q1, hr1, sp_get e1, q2, hr2, q3]
    exact q4
  · have t1 : st2.node.right = (plug (c false) l).ptr := tl
    have t2 : st2.node.left = (plug (c true) g).ptr := tg
    simp [s4, t1, t2]
  · exact pl.congr fun j hj => ho j (by rintro rfl; exact hrl.1 hj)
  · exact pg.congr fun j hj => ho j (by rintro rfl; exact hrl.2 hj)
  · intro i hi
    have hi' := fun hn => hi (hperm.mem_iff.mp hn)
    rw [ho i (by rintro rfl; exact hi (by simp [ids]))]
    exact h2.frame i hi'

theorem after_nil {d : Bool} : ∀ {c : List RbFrame}, (∀ f ∈ c, f.d = !d) → after d c = []
  | [], _ => rfl
  | f :: c, h => by
    rw [after, if_neg (by rw [h f (by simp)]; cases d <;> decide)]
    exact after_nil fun g hg => h g (by simp [hg])

/-- `SPLAY` and `SPLAY_MINMAX`. -/
theorem spSplay_spec {cmp : Nat → Int} {fuel : Nat} {m0 s} {T : RbT} (h : SpTree m0 s T) (hne : T ≠ leaf) (hm : SpMono cmp T.inorder) (hf : T.depth ≤ fuel) :
    ∃ s' red l r g, spSplay cmp fuel s = ok s' ∧ SpTree m0 s' (node red l r g) ∧ (node red l r g).inorder = T.inorder ∧
      (cmp r = 0 ∨ (cmp r < 0 ∧ ∀ x ∈ l.inorder, 0 < cmp x) ∨ (0 < cmp r ∧ ∀ y ∈ g.inorder, cmp y < 0)) := by
  have h0 : SpHolds m0 ⟨s, ⟨none, none⟩, fun _ => none⟩ (fun _ => []) T :=
    ⟨h.root, h.tree, fun _ => rfl, by simp, fun d => ⟨none, by cases d <;> rfl⟩, by simpa [cids] using h.nodup, by simpa [cids] using h.frame⟩
  obtain ⟨st', c', red, l, r, g, q, h1, hall, hb, ha, hcase⟩ := spLoop_spec fuel h0 hne (by simpa [spAll, before, after] using hm) hf (by simp [before]) (by simp [after])
  obtain ⟨s', q', h2⟩ := assemble_spec h1
  have hl : (plug (c' false) l).inorder = before true (c' false) ++ l.inorder := by
    rw [inorder_plug, after_nil (d := true) (fun f hf => h1.side false f hf), List.append_nil]
  have hg : (plug (c' true) g).inorder = g.inorder ++ after true (c' true) := by
    rw [inorder_plug, before_nil (d := true) (fun f hf => h1.side true f hf), List.nil_append]
  refine ⟨s', red, _, r, _, by simp only [spSplay, q, ok_bind, q'], h2, ?_, ?_⟩
  · have : spAll (fun _ => []) T = T.inorder := by simp [spAll, before, after]
    rw [← this, ← hall]
    simp only [inorder, hl, hg, spAll]
    simp
  · rcases hcase with h | ⟨h, rfl⟩ | ⟨h, rfl⟩
    · exact .inl h
    · exact .inr (.inl ⟨h, fun x hx => hb x (by rw [hl] at hx; simpa [inorder] using hx)⟩)
    · exact .inr (.inr ⟨h, fun x hx => ha x (by rw [hg] at hx; simpa [inorder] using hx)⟩)

end Wdns
