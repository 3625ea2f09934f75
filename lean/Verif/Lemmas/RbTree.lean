import Verif.Model.RbTree

/-!
# Lemmas: red-black trees in memory
-/

namespace Wdns
open Outcome

/-! ## Entries, seen from one side -/

/-- The entry with `x` on side `d` and `y` on the other. -/
def RbEnt.of (d : Bool) (x y q : Option Nat) (red : Bool) : RbEnt := if d then ⟨x, y, q, red⟩ else ⟨y, x, q, red⟩

@[simp] theorem RbEnt.of_child (d x y q red) : (RbEnt.of d x y q red).child d = x := by cases d <;> rfl
@[simp] theorem RbEnt.of_other (d x y q red) : (RbEnt.of d x y q red).child (!d) = y := by cases d <;> rfl
@[simp] theorem RbEnt.of_parent (d x y q red) : (RbEnt.of d x y q red).parent = q := by cases d <;> rfl
@[simp] theorem RbEnt.of_red (d x y q red) : (RbEnt.of d x y q red).red = red := by cases d <;> rfl
@[simp] theorem RbEnt.of_setChild (d x y q red v) : (RbEnt.of d x y q red).setChild d v = .of d v y q red := by cases d <;> rfl
@[simp] theorem RbEnt.of_setOther (d x y q red v) : (RbEnt.of d x y q red).setChild (!d) v = .of d x v q red := by cases d <;> rfl
@[simp] theorem RbEnt.of_setParent (d x y q red v) : { RbEnt.of d x y q red with parent := v } = .of d x y v red := by cases d <;> rfl
@[simp] theorem RbEnt.of_setRed (d x y q red v) : { RbEnt.of d x y q red with red := v } = .of d x y q v := by cases d <;> rfl
theorem RbEnt.of_swap (d x y q red) : RbEnt.of (!d) x y q red = .of d y x q red := by cases d <;> rfl

/-! ## Trees -/

/-- Trees of addresses. -/
inductive RbT where
  | leaf
  | node (red : Bool) (l : RbT) (i : Nat) (r : RbT)
  deriving DecidableEq, Repr

namespace RbT

/-- The node with `a` on side `d` and `b` on the other. -/
def mk (d red : Bool) (a : RbT) (i : Nat) (b : RbT) : RbT := if d then node red a i b else node red b i a

/-- The address of the root. -/
def ptr : RbT → Option Nat
  | leaf => none
  | node _ _ i _ => some i

/-- All addresses. -/
def ids : RbT → List Nat
  | leaf => []
  | node _ l i r => i :: (l.ids ++ r.ids)

/-- The addresses from left to right. -/
def inorder : RbT → List Nat
  | leaf => []
  | node _ l i r => l.inorder ++ i :: r.inorder

/-- The depth. -/
def depth : RbT → Nat
  | leaf => 0
  | node _ l _ r => max l.depth r.depth + 1

@[simp] theorem ptr_mk (d red a i b) : (mk d red a i b).ptr = some i := by cases d <;> rfl

theorem ids_mk (d red a i b) : (mk d red a i b).ids.Perm (i :: (a.ids ++ b.ids)) := by
  cases d
  · exact .cons _ List.perm_append_comm
  · exact .refl _

theorem mem_mk {d red a i b j} : j ∈ (mk d red a i b).ids ↔ j = i ∨ j ∈ a.ids ∨ j ∈ b.ids := by
  rw [(ids_mk d red a i b).mem_iff]; simp

theorem ptr_mem {t : RbT} {i : Nat} (h : t.ptr = some i) : i ∈ t.ids := by
  cases t with
  | leaf => cases h
  | node red l j r => simp only [ptr, Option.some.injEq] at h; subst h; simp [ids]

theorem ids_inorder (t : RbT) : t.ids.Perm t.inorder := by
  induction t with
  | leaf => exact .refl _
  | node red l i r h1 h2 =>
    simp only [ids, inorder]
    exact (List.Perm.cons i (h1.append h2)).trans List.perm_middle.symm

/-- The tree is in memory, below the parent `q`. -/
def Rep (m : Nat → Option RbEnt) : Option Nat → RbT → Prop
  | _, leaf => True
  | q, node red l i r => m i = some ⟨l.ptr, r.ptr, q, red⟩ ∧ Rep m (some i) l ∧ Rep m (some i) r

theorem rep_mk {m q d red a i b} : Rep m q (mk d red a i b) ↔ m i = some (.of d a.ptr b.ptr q red) ∧ Rep m (some i) a ∧ Rep m (some i) b := by
  cases d
  · show _ ∧ _ ∧ _ ↔ _
    exact ⟨fun h => ⟨h.1, h.2.2, h.2.1⟩, fun h => ⟨h.1, h.2.2, h.2.1⟩⟩
  · exact Iff.rfl

theorem Rep.congr {m m' : Nat → Option RbEnt} : ∀ {t : RbT} {q}, Rep m q t → (∀ i ∈ t.ids, m' i = m i) → Rep m' q t
  | leaf, _, _, _ => trivial
  | node red l i r, q, ⟨h1, h2, h3⟩, h => by
    refine ⟨by rw [h i (by simp [ids])]; exact h1, h2.congr fun j hj => h j (by simp [ids, hj]), h3.congr fun j hj => h j (by simp [ids, hj])⟩

/-- A new parent for the root, nothing else. -/
theorem Rep.reparent {m m' : Nat → Option RbEnt} {t : RbT} {q q' : Option Nat} (h : Rep m q t) (hn : t.ids.Nodup)
    (hr : ∀ i e, t.ptr = some i → m i = some e → m' i = some { e with parent := q' }) (ho : ∀ i ∈ t.ids, t.ptr ≠ some i → m' i = m i) : Rep m' q' t := by
  cases t with
  | leaf => trivial
  | node red l i r =>
    obtain ⟨h1, h2, h3⟩ := h
    simp only [ids, List.nodup_cons, List.mem_append] at hn
    refine ⟨hr i _ rfl h1, h2.congr fun j hj => ho j (by simp [ids, hj]) ?_, h3.congr fun j hj => ho j (by simp [ids, hj]) ?_⟩
    · simp only [ptr, ne_eq, Option.some.injEq]; rintro rfl; exact hn.1 (.inl hj)
    · simp only [ptr, ne_eq, Option.some.injEq]; rintro rfl; exact hn.1 (.inr hj)

theorem Rep.mem {m : Nat → Option RbEnt} : ∀ {t : RbT} {q}, Rep m q t → ∀ i ∈ t.ids, ∃ e, m i = some e
  | leaf, _, _, i, hi => by cases hi
  | node red l j r, q, ⟨h1, h2, h3⟩, i, hi => by
    simp only [ids, List.mem_cons, List.mem_append] at hi
    rcases hi with rfl | hi | hi
    · exact ⟨_, h1⟩
    · exact h2.mem i hi
    · exact h3.mem i hi

/-- Red or black: a node is coloured anew. -/
def recolor (k : Nat) (v : Bool) : RbT → RbT
  | leaf => leaf
  | node red l i r => node (if i = k then v else red) (l.recolor k v) i (r.recolor k v)

theorem recolor_of_notMem {k v} : ∀ {t : RbT}, k ∉ t.ids → t.recolor k v = t
  | leaf, _ => rfl
  | node red l i r, h => by
    simp only [ids, List.mem_cons, List.mem_append] at h
    simp only [recolor, recolor_of_notMem (t := l) (fun hk => h (.inr (.inl hk))), recolor_of_notMem (t := r) (fun hk => h (.inr (.inr hk))),
      if_neg (fun e : i = k => h (.inl e.symm))]

@[simp] theorem recolor_ids (k v) (t : RbT) : (t.recolor k v).ids = t.ids := by
  induction t with
  | leaf => rfl
  | node red l i r h1 h2 => simp [recolor, ids, h1, h2]

@[simp] theorem recolor_inorder (k v) (t : RbT) : (t.recolor k v).inorder = t.inorder := by
  induction t with
  | leaf => rfl
  | node red l i r h1 h2 => simp [recolor, inorder, h1, h2]

@[simp] theorem recolor_ptr (k v) (t : RbT) : (t.recolor k v).ptr = t.ptr := by cases t <;> rfl

theorem recolor_mk (k v d red a i b) : (mk d red a i b).recolor k v = mk d (if i = k then v else red) (a.recolor k v) i (b.recolor k v) := by cases d <;> rfl

theorem Rep.recolor {m : Nat → Option RbEnt} {k : Nat} {v : Bool} {m' : Nat → Option RbEnt} (h0 : ∀ i, i ≠ k → m' i = m i)
    (h1 : ∀ e, m k = some e → m' k = some { e with red := v }) : ∀ {t : RbT} {q}, Rep m q t → Rep m' q (t.recolor k v)
  | leaf, _, _ => trivial
  | node red l i r, q, ⟨h2, h3, h4⟩ => by
    refine ⟨?_, by simpa using h3.recolor h0 h1, by simpa using h4.recolor h0 h1⟩
    by_cases hi : i = k
    · subst hi; rw [h1 _ h2]; simp
    · rw [h0 i hi, h2]; simp [hi]

end RbT

/-! ## Contexts -/

/-- A step from a node to the child on side `left`: the node and its other subtree. -/
structure RbFrame where
  d : Bool
  red : Bool
  i : Nat
  sib : RbT
  deriving DecidableEq, Repr

/-- The parent of the hole. -/
def topOf : List RbFrame → Option Nat
  | [] => none
  | f :: _ => some f.i

/-- The addresses in a context. -/
def cids : List RbFrame → List Nat
  | [] => []
  | f :: c => f.i :: (f.sib.ids ++ cids c)

/-- The tree that results from putting `t` in the hole. -/
def plug : List RbFrame → RbT → RbT
  | [], t => t
  | f :: c, t => plug c (RbT.mk f.d f.red t f.i f.sib)

/-- The context is in memory, with the pointer `p` in the hole. -/
def RepC (m : Nat → Option RbEnt) (root : Option Nat) : List RbFrame → Option Nat → Prop
  | [], p => root = p
  | f :: c, p => m f.i = some (.of f.d p f.sib.ptr (topOf c) f.red) ∧ f.sib.Rep m (some f.i) ∧ RepC m root c (some f.i)

theorem RepC.congr {m m' : Nat → Option RbEnt} {root} : ∀ {c : List RbFrame} {p}, RepC m root c p → (∀ i ∈ cids c, m' i = m i) → RepC m' root c p
  | [], _, h, _ => h
  | f :: c, p, ⟨h1, h2, h3⟩, h =>
    ⟨by rw [h _ (by simp [cids])]; exact h1, h2.congr fun j hj => h j (by simp [cids, hj]), h3.congr fun j hj => h j (by simp [cids, hj])⟩

/-- Another pointer in the hole. -/
theorem RepC.repoint {m m' : Nat → Option RbEnt} {root root'} {c : List RbFrame} {p p' : Option Nat} (h : RepC m root c p) (hn : (cids c).Nodup)
    (hroot : root' = if topOf c = none then p' else root)
    (hr : ∀ f c', c = f :: c' → m' f.i = some (.of f.d p' f.sib.ptr (topOf c') f.red)) (ho : ∀ i ∈ cids c, topOf c ≠ some i → m' i = m i) :
    RepC m' root' c p' := by
  cases c with
  | nil => simpa [topOf, RepC] using hroot
  | cons f c =>
    obtain ⟨h1, h2, h3⟩ := h
    simp only [cids, List.nodup_cons, List.mem_append] at hn
    have hroot : root' = root := by simpa [topOf] using hroot
    subst hroot
    refine ⟨hr f c rfl, h2.congr fun j hj => ho j (by simp [cids, hj]) ?_, h3.congr fun j hj => ho j (by simp [cids, hj]) ?_⟩
    · simp only [topOf, ne_eq, Option.some.injEq]; rintro rfl; exact hn.1 (.inl hj)
    · simp only [topOf, ne_eq, Option.some.injEq]; rintro rfl; exact hn.1 (.inr hj)

/-- The state holds the tree `t` in the context `c`, and otherwise memory is still `m0`. -/
structure RbHolds (m0 : Nat → Option RbEnt) (s : RbMem) (c : List RbFrame) (t : RbT) : Prop where
  ctx : RepC s.ent s.root c t.ptr
  tree : t.Rep s.ent (topOf c)
  nodup : (cids c ++ t.ids).Nodup
  frame : ∀ i, i ∉ cids c ++ t.ids → s.ent i = m0 i

theorem holds_plug {m0} {s : RbMem} {f : RbFrame} {c : List RbFrame} {t : RbT} : RbHolds m0 s (f :: c) t ↔ RbHolds m0 s c (.mk f.d f.red t f.i f.sib) := by
  have hp : (cids (f :: c) ++ t.ids).Perm (cids c ++ (RbT.mk f.d f.red t f.i f.sib).ids) := by
    refine List.Perm.trans ?_ (List.Perm.append_left _ (RbT.ids_mk ..).symm)
    simp only [cids, List.cons_append, List.append_assoc]
    refine List.Perm.trans ?_ List.perm_middle.symm
    refine .cons _ ?_
    refine List.perm_append_comm.trans ?_
    simp only [List.append_assoc]
    exact .refl _
  constructor
  · rintro ⟨⟨h1, h2, h3⟩, h4, h5, h6⟩
    exact ⟨by simpa using h3, RbT.rep_mk.mpr ⟨h1, h4, h2⟩, hp.nodup_iff.mp h5, fun i hi => h6 i fun h => hi (hp.mem_iff.mp h)⟩
  · rintro ⟨h1, h2, h3, hf⟩
    obtain ⟨h4, h5, h6⟩ := RbT.rep_mk.mp h2
    exact ⟨⟨h4, h6, by simpa using h1⟩, h5, hp.nodup_iff.mpr h3, fun i hi => hf i fun h => hi (hp.mem_iff.mpr h)⟩

theorem holds_root {m0} {s : RbMem} : ∀ {c : List RbFrame} {t : RbT}, RbHolds m0 s c t ↔ RbHolds m0 s [] (plug c t)
  | [], _ => Iff.rfl
  | _ :: c, _ => holds_plug.trans (holds_root (c := c))

/-! ## Single steps -/

theorem rb_get {s : RbMem} {i : Nat} {e : RbEnt} (h : s.ent i = some e) : s.get (some i) = ok e := by simp [RbMem.get, h]

theorem rb_mod {s : RbMem} {i : Nat} {e : RbEnt} (h : s.ent i = some e) (f : RbEnt → RbEnt) :
    s.mod (some i) f = ok ⟨s.root, fun j => if j = i then some (f e) else s.ent j⟩ := by simp [RbMem.mod, h]

theorem rb_setParent {s : RbMem} {i : Nat} {d x y q red} {v : Option Nat} (h : s.ent i = some (.of d x y q red)) :
    s.setParent (some i) v = ok ⟨s.root, fun j => if j = i then some (.of d x y v red) else s.ent j⟩ := by
  rw [RbMem.setParent, rb_mod h]; cases d <;> rfl

theorem holds_get {m0} {s : RbMem} {c : List RbFrame} {d red a i b} (h : RbHolds m0 s c (.mk d red a i b)) :
    s.ent i = some (.of d a.ptr b.ptr (topOf c) red) := (RbT.rep_mk.mp h.tree).1

theorem setRed_holds {m0} {s : RbMem} {c : List RbFrame} {t : RbT} {k : Nat} {v : Bool} (h : RbHolds m0 s c t) (hk : k ∈ t.ids) :
    ∃ s', s.setRed (some k) v = ok s' ∧ RbHolds m0 s' c (t.recolor k v) := by
  obtain ⟨e, he⟩ := h.tree.mem k hk
  refine ⟨_, rb_mod he _, ?_⟩
  have hn := List.nodup_append.mp h.nodup
  refine ⟨?_, h.tree.recolor (m' := fun j => if j = k then some { e with red := v } else s.ent j) (fun i hi => by simp [hi]) (fun e' he' => ?_), by simpa using h.nodup, ?_⟩
  · simp only [RbT.recolor_ptr]
    refine h.ctx.congr fun i hi => ?_
    rw [if_neg]
    rintro rfl
    exact hn.2.2 i hi i hk rfl
  · rw [he, Option.some.injEq] at he'
    subst he'; simp
  · intro i hi
    rw [RbT.recolor_ids] at hi
    show (if i = k then _ else _) = _
    rw [if_neg (by rintro rfl; exact hi (by simp [hk]))]
    exact h.frame i hi

theorem relink_holds {s : RbMem} {c : List RbFrame} {p p' : Option Nat} {x : Nat} (hp : p = some x) (h : RepC s.ent s.root c p) (hn : (cids c).Nodup) (hx : x ∉ cids c) :
    ∃ s', s.relink (topOf c) (some x) p' = ok s' ∧ RepC s'.ent s'.root c p' ∧ (∀ i, topOf c ≠ some i → s'.ent i = s.ent i) := by
  subst hp
  cases c with
  | nil => exact ⟨{ s with root := p' }, by simp [topOf, RbMem.relink], rfl, fun _ _ => rfl⟩
  | cons f c =>
    obtain ⟨h1, h2, h3⟩ := id h
    have hl : decide ((RbEnt.of f.d (some x) f.sib.ptr (topOf c) f.red).left = some x) = f.d := by
      cases hd : f.d with
      | true => simp [RbEnt.of]
      | false =>
        simp only [RbEnt.of, Bool.false_eq_true, if_false, decide_eq_false_iff_not]
        intro he
        exact hx (by simp [cids, RbT.ptr_mem he])
    have : s.relink (topOf (f :: c)) (some x) p' = s.setChild (some f.i) f.d p' := by
      show s.relink (some f.i) (some x) p' = _
      simp only [RbMem.relink, ne_eq, reduceCtorEq, not_false_eq_true, if_true, rb_get h1, ok_bind]
      by_cases hq : (RbEnt.of f.d (some x) f.sib.ptr (topOf c) f.red).left = some x
      · rw [if_pos hq]; rw [decide_eq_true hq] at hl; rw [← hl]
      · rw [if_neg hq]; rw [decide_eq_false hq] at hl; rw [← hl]
    refine ⟨_, by rw [this]; exact rb_mod h1 _, ?_, ?_⟩
    · refine h.repoint hn (by simp [topOf]) ?_ ?_
      · intro f' c' hc
        simp only [List.cons.injEq] at hc
        obtain ⟨rfl, rfl⟩ := hc
        simp
      · intro i _ hi
        simp only [topOf, ne_eq, Option.some.injEq] at hi
        show (if i = f.i then _ else _) = _
        rw [if_neg (fun h => hi h.symm)]
    · intro i hi
      simp only [topOf, ne_eq, Option.some.injEq] at hi
      show (if i = f.i then _ else _) = _
      rw [if_neg (fun h => hi h.symm)]

theorem adopt_rep {s : RbMem} {t : RbT} {q q' : Option Nat} (h : t.Rep s.ent q) (hn : t.ids.Nodup) :
    ∃ s', s.adopt t.ptr q' = ok s' ∧ s'.root = s.root ∧ t.Rep s'.ent q' ∧ (∀ i, i ∉ t.ids → s'.ent i = s.ent i) := by
  cases t with
  | leaf => exact ⟨s, rfl, rfl, trivial, fun _ _ => rfl⟩
  | node red l i r =>
    obtain ⟨h1, h2, h3⟩ := id h
    refine ⟨⟨s.root, fun j => if j = i then some ⟨l.ptr, r.ptr, q', red⟩ else s.ent j⟩, ?_, rfl, ?_, ?_⟩
    · show (if some i ≠ none then s.setParent (some i) q' else ok s) = _
      rw [if_pos (by simp)]
      exact rb_mod h1 _
    · refine h.reparent hn ?_ ?_
      · intro j e hj he
        simp only [RbT.ptr, Option.some.injEq] at hj
        subst hj
        rw [h1, Option.some.injEq] at he
        subst he
        simp
      · intro j _ hj
        simp only [RbT.ptr, ne_eq, Option.some.injEq] at hj
        show (if j = i then _ else _) = _
        rw [if_neg (fun h => hj h.symm)]
    · intro j hj
      simp only [RbT.ids, List.mem_cons, List.mem_append] at hj
      show (if j = i then _ else _) = _
      rw [if_neg (fun h => hj (.inl h))]

/-- A rotation, where the tree is the right one. -/
theorem rotate_holds {m0} {s : RbMem} {c : List RbFrame} {d r1 r2 : Bool} {a b g : RbT} {x y : Nat} (h : RbHolds m0 s c (.mk d r1 a x (.mk d r2 b y g))) :
    ∃ s', s.rotate d (some x) = ok (s', some y) ∧ RbHolds m0 s' c (.mk d r2 (.mk d r1 a x b) y g) := by
  obtain ⟨hc, ht, hn, hf⟩ := h
  have hperm : (RbT.mk d r1 a x (.mk d r2 b y g)).ids.Perm (RbT.mk d r2 (.mk d r1 a x b) y g).ids := by
    refine (RbT.ids_mk ..).trans ?_
    refine List.Perm.trans ?_ (RbT.ids_mk ..).symm
    refine (List.Perm.cons _ (List.Perm.append_left _ (RbT.ids_mk ..))).trans ?_
    refine List.Perm.trans ?_ (List.Perm.cons _ (List.Perm.append_right _ (RbT.ids_mk ..).symm))
    simp only [List.cons_append, List.append_assoc]
    exact (List.Perm.cons x List.perm_middle).trans (.swap ..)
  have hn' := (List.Perm.append_left (cids c) hperm).nodup_iff.mp hn
  obtain ⟨hx, hta, hty⟩ := RbT.rep_mk.mp ht
  obtain ⟨hy, htb, htg⟩ := RbT.rep_mk.mp hty
  have hnn := ((List.Perm.append_left (cids c) ((RbT.ids_mk ..).trans (List.Perm.cons _ (List.Perm.append_left _ (RbT.ids_mk ..))))).nodup_iff.mp hn)
  simp only [List.nodup_append, List.nodup_cons, List.mem_append, List.mem_cons, not_or] at hnn
  obtain ⟨nc, ⟨⟨xa, xy, xb, xg⟩, na, ⟨⟨yb, yg⟩, nb, ng, bg⟩, ay⟩, cx⟩ := hnn
  have e1 : ∀ i ∈ cids c, i ≠ x ∧ i ≠ y ∧ i ∉ a.ids ∧ i ∉ b.ids ∧ i ∉ g.ids := fun i hi =>
    ⟨cx i hi x (.inl rfl), cx i hi y (.inr (.inr (.inl rfl))), fun h => cx i hi i (.inr (.inl h)) rfl, fun h => cx i hi i (.inr (.inr (.inr (.inl h)))) rfl,
      fun h => cx i hi i (.inr (.inr (.inr (.inr h)))) rfl⟩
  have e2 : ∀ i ∈ a.ids, i ≠ x ∧ i ≠ y ∧ i ∉ b.ids ∧ i ∉ g.ids := fun i hi =>
    ⟨fun h => xa (h ▸ hi), ay i hi y (.inl rfl), fun h => ay i hi i (.inr (.inl h)) rfl, fun h => ay i hi i (.inr (.inr h)) rfl⟩
  have etop : ∀ i, topOf c = some i → i ∈ cids c := by
    intro i hi
    cases c with
    | nil => cases hi
    | cons f c => simp only [topOf, Option.some.injEq] at hi; subst hi; simp [cids]
  -- RB_RIGHT(elm) = RB_LEFT(tmp)
  let s1 : RbMem := ⟨s.root, fun j => if j = x then some (.of d a.ptr b.ptr (topOf c) r1) else s.ent j⟩
  have q1 : s.setChild (some x) (!d) b.ptr = ok s1 := by
    rw [RbMem.setChild, rb_mod hx]; simp [s1]
  obtain ⟨s2, q2, root2, b2, o2⟩ := adopt_rep (s := s1) (t := b) (q := some y) (q' := some x) (htb.congr fun i hi => by
    show (if i = x then _ else _) = _
    rw [if_neg (fun h : i = x => xb (h ▸ hi))]) nb
  have x2 : s2.ent x = some (.of d a.ptr b.ptr (topOf c) r1) := by rw [o2 x xb]; simp [s1]
  have y2 : s2.ent y = some (.of d b.ptr g.ptr (some x) r2) := by rw [o2 y yb]; simp only [s1]; rw [if_neg (fun h => xy h.symm)]; exact hy
  let s3 : RbMem := ⟨s2.root, fun j => if j = y then some (.of d b.ptr g.ptr (topOf c) r2) else s2.ent j⟩
  have q3 : s2.setParent (some y) (topOf c) = ok s3 := by exact rb_setParent y2
  have hc3 : RepC s3.ent s3.root c (some x) := by
    have : s3.root = s.root := root2
    rw [this]
    rw [RbT.ptr_mk] at hc
    refine hc.congr fun i hi => ?_
    obtain ⟨g1, g2, g3, g4, g5⟩ := e1 i hi
    simp only [s3]
    rw [if_neg g2, o2 i g4]
    simp only [s1]
    rw [if_neg g1]
  obtain ⟨s4, q4, c4, o4⟩ := relink_holds (p' := some y) rfl hc3 nc (fun hx => (e1 x hx).1 rfl)
  have ox : topOf c ≠ some x := fun h => (e1 x (etop x h)).1 rfl
  have oy : topOf c ≠ some y := fun h => (e1 y (etop y h)).2.1 rfl
  have y4 : s4.ent y = some (.of d b.ptr g.ptr (topOf c) r2) := by rw [o4 y oy]; simp [s3]
  have x4 : s4.ent x = some (.of d a.ptr b.ptr (topOf c) r1) := by rw [o4 x ox]; simp only [s3]; rw [if_neg xy, x2]
  let s5 : RbMem := ⟨s4.root, fun j => if j = y then some (.of d (some x) g.ptr (topOf c) r2) else s4.ent j⟩
  have q5 : s4.setChild (some y) d (some x) = ok s5 := by rw [RbMem.setChild, rb_mod y4]; simp [s5]
  have x5 : s5.ent x = some (.of d a.ptr b.ptr (topOf c) r1) := by simp only [s5]; rw [if_neg xy, x4]
  let s6 : RbMem := ⟨s5.root, fun j => if j = x then some (.of d a.ptr b.ptr (some y) r1) else s5.ent j⟩
  have q6 : s5.setParent (some x) (some y) = ok s6 := by exact rb_setParent x5
  have rest : ∀ i, i ≠ x → i ≠ y → topOf c ≠ some i → s6.ent i = s2.ent i := by
    intro i h1 h2 h3
    simp only [s6, s5]
    rw [if_neg h1, if_neg h2, o4 i h3]
    simp only [s3]
    rw [if_neg h2]
  refine ⟨s6, ?_, ?_, ?_, hn', ?_⟩
  · unfold RbMem.rotate
    simp only [rb_get hx, ok_bind, RbEnt.of_other, RbT.ptr_mk, rb_get hy, RbEnt.of_child, q1, q2, rb_get x2, RbEnt.of_parent, q3, q4, q5, q6]
  · rw [RbT.ptr_mk]
    refine c4.congr fun i hi => ?_
    obtain ⟨g1, g2, _⟩ := e1 i hi
    simp only [s6, s5]
    rw [if_neg g1, if_neg g2]
  · refine RbT.rep_mk.mpr ⟨?_, RbT.rep_mk.mpr ⟨?_, ?_, ?_⟩, ?_⟩
    · simp only [s6, s5]
      rw [if_neg (fun h => xy h.symm)]; simp
    · simp [s6]
    · refine hta.congr fun i hi => ?_
      obtain ⟨g1, g2, g3, g4⟩ := e2 i hi
      rw [rest i g1 g2 (fun h => (e1 i (etop i h)).2.2.1 hi), o2 i g3]
      simp only [s1]; rw [if_neg g1]
    · refine b2.congr fun i hi => ?_
      exact rest i (fun h => xb (h ▸ hi)) (fun h => yb (h ▸ hi)) (fun h => (e1 i (etop i h)).2.2.2.1 hi)
    · refine htg.congr fun i hi => ?_
      rw [rest i (fun h => xg (h ▸ hi)) (fun h => yg (h ▸ hi)) (fun h => (e1 i (etop i h)).2.2.2.2 hi), o2 i (fun h => bg i h i hi rfl)]
      simp only [s1]; rw [if_neg (fun h : i = x => xg (h ▸ hi))]
  · intro i hi
    rw [← (List.Perm.append_left (cids c) hperm).mem_iff] at hi
    have hi' := hi
    simp only [List.mem_append, RbT.mem_mk, not_or] at hi
    obtain ⟨g0, g1, g2, g3, g4, g5⟩ := hi
    rw [rest i g1 g3 (fun h => g0 (etop i h)), o2 i g4]
    simp only [s1]; rw [if_neg g1]
    exact hf i hi'

end Wdns
