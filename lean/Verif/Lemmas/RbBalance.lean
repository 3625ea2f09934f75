import Verif.Lemmas.RbTree

/-!
# Lemmas: the colours of red-black trees
-/

namespace Wdns
open Outcome

namespace RbT

/-- The colour of the root; a leaf is black. -/
def isRed : RbT → Bool
  | leaf => false
  | node red _ _ _ => red

@[simp] theorem isRed_mk (d red a i b) : (mk d red a i b).isRed = red := by cases d <;> rfl

/-- No red node has a red child, and every path to a leaf meets `h` black nodes. -/
def Ok : Nat → RbT → Prop
  | h, leaf => h = 0
  | h, node true l _ r => l.isRed = false ∧ r.isRed = false ∧ Ok h l ∧ Ok h r
  | 0, node false _ _ _ => False
  | h + 1, node false l _ r => Ok h l ∧ Ok h r

theorem ok_red {h d a i b} : Ok h (mk d true a i b) ↔ a.isRed = false ∧ b.isRed = false ∧ Ok h a ∧ Ok h b := by
  cases d
  · simp only [mk, Bool.false_eq_true, if_false, Ok]
    exact ⟨fun ⟨h1, h2, h3, h4⟩ => ⟨h2, h1, h4, h3⟩, fun ⟨h1, h2, h3, h4⟩ => ⟨h2, h1, h4, h3⟩⟩
  · simp [mk, Ok]

theorem ok_black {h d a i b} : Ok h (mk d false a i b) ↔ ∃ k, h = k + 1 ∧ Ok k a ∧ Ok k b := by
  cases h with
  | zero => cases d <;> simp [mk, Ok]
  | succ h =>
    cases d
    · simp only [mk, Bool.false_eq_true, if_false, Ok]
      exact ⟨fun ⟨h1, h2⟩ => ⟨h, rfl, h2, h1⟩, fun ⟨k, e, h1, h2⟩ => by cases e; exact ⟨h2, h1⟩⟩
    · simp only [mk, if_true, Ok]
      exact ⟨fun ⟨h1, h2⟩ => ⟨h, rfl, h1, h2⟩, fun ⟨k, e, h1, h2⟩ => by cases e; exact ⟨h1, h2⟩⟩

theorem ok_black_succ {h d a i b} : Ok (h + 1) (mk d false a i b) ↔ Ok h a ∧ Ok h b := by
  rw [ok_black]
  exact ⟨fun ⟨k, e, h1⟩ => by cases e; exact h1, fun h1 => ⟨h, rfl, h1⟩⟩

theorem ok_leaf {h} : Ok h leaf ↔ h = 0 := by cases h <;> simp [Ok]

theorem exists_mk (d : Bool) {t : RbT} (h : t ≠ leaf) : ∃ red a i b, t = mk d red a i b := by
  cases t with
  | leaf => exact absurd rfl h
  | node red l i r =>
    cases d
    · exact ⟨red, r, i, l, rfl⟩
    · exact ⟨red, l, i, r, rfl⟩

theorem mk_swap (d red a i b) : mk (!d) red a i b = mk d red b i a := by cases d <;> rfl

/-- The elements in direction `d`: from left to right if `true`. -/
def ord (d : Bool) (t : RbT) : List Nat := if d then t.inorder else t.inorder.reverse

@[simp] theorem ord_leaf (d) : ord d leaf = [] := by cases d <;> rfl

theorem ord_mk (d red a i b) : ord d (mk d red a i b) = ord d a ++ i :: ord d b := by
  cases d <;> simp [ord, mk, inorder]

theorem ord_swap (d red a i b) : ord d (mk (!d) red a i b) = ord d b ++ i :: ord d a := by rw [mk_swap, ord_mk]

theorem ord_true (t) : ord true t = t.inorder := rfl

theorem inorder_eq_of_ord {d} {t u : RbT} (h : ord d t = ord d u) : t.inorder = u.inorder := by
  cases d
  · simpa [ord] using h
  · simpa [ord] using h

/-- The root made black. -/
def black : RbT → RbT
  | leaf => leaf
  | node _ l i r => node false l i r

@[simp] theorem black_mk (d red a i b) : (mk d red a i b).black = mk d false a i b := by cases d <;> rfl
@[simp] theorem black_isRed (t : RbT) : t.black.isRed = false := by cases t <;> rfl
@[simp] theorem black_inorder (t : RbT) : t.black.inorder = t.inorder := by cases t <;> rfl
@[simp] theorem black_ids (t : RbT) : t.black.ids = t.ids := by cases t <;> rfl
@[simp] theorem black_ptr (t : RbT) : t.black.ptr = t.ptr := by cases t <;> rfl

theorem black_of_black {t : RbT} (h : t.isRed = false) : t.black = t := by
  cases t with
  | leaf => rfl
  | node red l i r => simp only [isRed] at h; subst h; rfl

theorem black_ok {h : Nat} {t : RbT} (ho : Ok h t) : ∃ k, Ok k t.black := by
  cases t with
  | leaf => exact ⟨h, ho⟩
  | node red l i r =>
    cases red with
    | false => exact ⟨h, ho⟩
    | true => exact ⟨h + 1, ho.2.2⟩

theorem black_ok_red {h : Nat} {t : RbT} (ho : Ok h t) (hr : t.isRed = true) : Ok (h + 1) t.black := by
  cases t with
  | leaf => cases hr
  | node red l i r => simp only [isRed] at hr; subst hr; exact ho.2.2

end RbT

open RbT in
/-- What a context asks of the tree in its hole: the black height `h`, and the colour of the root `rd`. -/
def CtxOk : Bool → Nat → List RbFrame → Prop
  | rd, _, [] => rd = false
  | rd, h, f :: c => Ok h f.sib ∧ if f.red then rd = false ∧ f.sib.isRed = false ∧ CtxOk true h c else CtxOk false (h + 1) c

theorem ctxOk_weaken {h : Nat} {c : List RbFrame} {rd} (hc : CtxOk rd h c) : CtxOk false h c := by
  cases c with
  | nil => rfl
  | cons f c =>
    simp only [CtxOk] at hc ⊢
    refine ⟨hc.1, ?_⟩
    cases hf : f.red with
    | true =>
      have := hc.2
      rw [hf, if_pos rfl] at this
      rw [if_pos rfl]
      exact ⟨trivial, this.2⟩
    | false => have := hc.2; rw [hf] at this; exact this

theorem ctxOk_red {rd h d i sib c} : CtxOk rd h (⟨d, true, i, sib⟩ :: c) ↔ sib.Ok h ∧ rd = false ∧ sib.isRed = false ∧ CtxOk true h c := by simp [CtxOk]
theorem ctxOk_black {rd h d i sib c} : CtxOk rd h (⟨d, false, i, sib⟩ :: c) ↔ sib.Ok h ∧ CtxOk false (h + 1) c := by simp [CtxOk]

theorem ctxOk_nonempty {h c} (hc : CtxOk true h c) : c ≠ [] := by rintro rfl; simp [CtxOk] at hc

theorem plug_ok : ∀ {c : List RbFrame} {h : Nat} {t : RbT}, t.Ok h → CtxOk t.isRed h c → ∃ k, (plug c t).Ok k ∧ (plug c t).isRed = false
  | [], h, t, ht, hc => ⟨h, ht, hc⟩
  | ⟨d, true, i, sib⟩ :: c, h, t, ht, hc => by
    obtain ⟨h1, h2, h3, h4⟩ := ctxOk_red.mp hc
    exact plug_ok (c := c) (RbT.ok_red.mpr ⟨h2, h3, ht, h1⟩) (by simpa using h4)
  | ⟨d, false, i, sib⟩ :: c, h, t, ht, hc => by
    obtain ⟨h1, h2⟩ := ctxOk_black.mp hc
    exact plug_ok (c := c) (RbT.ok_black_succ.mpr ⟨ht, h1⟩) (by simpa using h2)

theorem unplug_ok : ∀ {c : List RbFrame} {h : Nat} {t : RbT}, (plug c t).Ok h → (plug c t).isRed = false → ∃ k, t.Ok k ∧ CtxOk t.isRed k c
  | [], h, t, ht, hc => ⟨h, ht, hc⟩
  | ⟨d, true, i, sib⟩ :: c, h, t, ht, hc => by
    obtain ⟨k, h1, h2⟩ := unplug_ok (c := c) (t := .mk d true t i sib) ht hc
    obtain ⟨h3, h4, h5, h6⟩ := RbT.ok_red.mp h1
    exact ⟨k, h5, ctxOk_red.mpr ⟨h6, h3, h4, by simpa using h2⟩⟩
  | ⟨d, false, i, sib⟩ :: c, h, t, ht, hc => by
    obtain ⟨k, h1, h2⟩ := unplug_ok (c := c) (t := .mk d false t i sib) ht hc
    obtain ⟨k', rfl, h3, h4⟩ := RbT.ok_black.mp h1
    exact ⟨k', h3, ctxOk_black.mpr ⟨h4, by simpa using h2⟩⟩

theorem plug_inorder : ∀ {c : List RbFrame} {t u : RbT}, t.inorder = u.inorder → (plug c t).inorder = (plug c u).inorder
  | [], _, _, h => h
  | f :: c, t, u, h => plug_inorder (c := c) (by cases hd : f.d <;> simp [RbT.mk, RbT.inorder, h])

theorem plug_append (c1 c2 : List RbFrame) (t : RbT) : plug (c1 ++ c2) t = plug c2 (plug c1 t) := by
  induction c1 generalizing t with
  | nil => rfl
  | cons f c1 ih => exact ih _

theorem side_eq {d x y q red} (h : x ≠ y) : decide (x = (RbEnt.of d x y q red).left) = d := by
  cases d
  · simpa [RbEnt.of] using h
  · simp [RbEnt.of]

theorem isRed_eq {m0 s c} {t : RbT} (h : RbHolds m0 s c t) : s.isRed t.ptr = ok t.isRed := by
  cases t with
  | leaf => rfl
  | node red l i r =>
    have := h.tree.1
    simp [RbMem.isRed, RbT.ptr, rb_get this, RbT.isRed]

theorem isBlack_eq {m0 s c} {t : RbT} (h : RbHolds m0 s c t) : s.isBlack t.ptr = ok (!t.isRed) := by
  cases t with
  | leaf => rfl
  | node red l i r =>
    have := h.tree.1
    simp [RbMem.isBlack, RbT.ptr, rb_get this, RbT.isRed]

/-- The focus moves to the sibling. -/
theorem holds_sib {m0 s c d red i} {t u : RbT} : RbHolds m0 s (⟨d, red, i, u⟩ :: c) t ↔ RbHolds m0 s (⟨!d, red, i, t⟩ :: c) u := by
  rw [holds_plug, holds_plug]
  simp only
  rw [RbT.mk_swap]

theorem holds_apart {m0 s d red i c} {t u : RbT} (h : RbHolds m0 s (⟨d, red, i, u⟩ :: c) t) (hu : t ≠ .leaf ∨ u ≠ .leaf) : t.ptr ≠ u.ptr := by
  have hn := h.nodup
  intro e
  cases t with
  | leaf =>
    cases u with
    | leaf => simp at hu
    | node => cases e
  | node red l j r =>
    have h1 : j ∈ u.ids := RbT.ptr_mem e.symm
    have := (List.nodup_append.mp hn).2.2 j (by simp [cids, h1]) j (by simp [RbT.ids])
    exact this rfl

theorem blacken_holds {m0 s c} {t : RbT} (h : RbHolds m0 s c t) : ∃ s', s.blacken t.ptr = ok s' ∧ RbHolds m0 s' c t.black := by
  cases t with
  | leaf => exact ⟨s, rfl, h⟩
  | node red l i r =>
    obtain ⟨s', h1, h2⟩ := setRed_holds (v := false) h (k := i) (by simp [RbT.ids])
    refine ⟨s', h1, ?_⟩
    have hn := (List.nodup_append.mp h.nodup).2.1
    simp only [RbT.ids, List.nodup_cons, List.mem_append, not_or] at hn
    simp only [RbT.recolor, if_true, RbT.recolor_of_notMem hn.1.1, RbT.recolor_of_notMem hn.1.2] at h2
    exact h2

/-- A node is coloured. -/
theorem setRed_mk {m0 s c d red a i b} {v : Bool} (h : RbHolds m0 s c (.mk d red a i b)) :
    ∃ s', s.setRed (some i) v = ok s' ∧ RbHolds m0 s' c (.mk d v a i b) := by
  obtain ⟨s', h1, h2⟩ := setRed_holds (v := v) h (k := i) (RbT.mem_mk.mpr (.inl rfl))
  refine ⟨s', h1, ?_⟩
  have hn := (RbT.ids_mk ..).nodup_iff.mp (List.nodup_append.mp h.nodup).2.1
  simp only [List.nodup_cons, List.mem_append, not_or] at hn
  rw [RbT.recolor_mk, if_pos rfl, RbT.recolor_of_notMem hn.1.1, RbT.recolor_of_notMem hn.1.2] at h2
  exact h2

end Wdns
