import Verif.Lemmas.RbQuery
import Mathlib.Data.Nat.Log

/-!
# C99: the red-black trees of libmy/tree.h are ordered sets
-/

namespace Wdns
open Outcome RbT

/-! ## The calls that look something up -/

theorem rbFind_spec {cmp : Nat → Nat → Int} (hc : Spec.Compares cmp) {s : RbMem} {k : Nat} : ∀ {t : RbT} {q fuel}, t.Rep s.ent q → Spec.Ascending cmp t.inorder → t.depth < fuel →
    rbFind cmp s k fuel t.ptr = ok (Spec.member cmp k t.inorder) := by
  intro t
  induction t with
  | leaf =>
    intro q fuel _ _ hf
    obtain ⟨n, rfl⟩ : ∃ n, fuel = n + 1 := ⟨fuel - 1, by omega⟩
    rfl
  | node red l i r ihl ihr =>
    intro q fuel h hs hf
    obtain ⟨n, rfl⟩ : ∃ n, fuel = n + 1 := ⟨fuel - 1, by omega⟩
    obtain ⟨e, hl, hr⟩ := h
    obtain ⟨sl, sr, hli, hir⟩ := sorted_node hs
    simp only [depth] at hf
    rw [show (node red l i r).ptr = some i from rfl]
    simp only [rbFind, rb_get e, ok_bind]
    have happ : Spec.member cmp k (node red l i r).inorder = (Spec.member cmp k l.inorder).or (Spec.member cmp k (i :: r.inorder)) := by
      simp only [Spec.member, inorder, List.find?_append]
    by_cases h1 : cmp k i < 0
    · rw [if_pos h1, ihl hl sl (by omega), happ]
      have : Spec.member cmp k (i :: r.inorder) = none := by
        have := member_none (cmp := cmp) (k := k) (xs := []) (ys := i :: r.inorder) (by simp) (by
          intro y hy
          rcases List.mem_cons.mp hy with rfl | hy
          · exact h1
          · exact cmp_lt_of_lt_of_le hc h1 (Int.le_of_lt (hir y hy)))
        simpa using this
      rw [this, Option.or_none]
    · rw [if_neg h1]
      have hleft : ∀ x ∈ l.inorder, 0 < cmp k x := fun x hx => (hc.anti x k).mp (cmp_lt_of_lt_of_le hc (hli x hx) (by
        by_cases h : cmp i k ≤ 0
        · exact h
        · exact absurd ((hc.anti k i).mpr (by omega)) h1))
      have hnone : Spec.member cmp k l.inorder = none := by
        have := member_none (cmp := cmp) (k := k) (xs := l.inorder) (ys := []) hleft (by simp)
        simpa using this
      rw [happ, hnone, Option.none_or]
      by_cases h2 : cmp k i > 0
      · rw [if_pos h2, ihr hr sr (by omega), Spec.member, Spec.member, List.find?_cons]
        simp only [show ¬ cmp k i = 0 by omega, decide_false]
      · rw [if_neg h2, Spec.member, List.find?_cons]
        simp only [show cmp k i = 0 by omega, decide_true]

theorem rbNfind_spec {cmp : Nat → Nat → Int} (hc : Spec.Compares cmp) {s : RbMem} {k : Nat} : ∀ {t : RbT} {q fuel res}, t.Rep s.ent q → Spec.Ascending cmp t.inorder → t.depth < fuel →
    rbNfind cmp s k fuel t.ptr res = ok ((Spec.notBelow cmp k t.inorder).or res) := by
  intro t
  induction t with
  | leaf =>
    intro q fuel res _ _ hf
    obtain ⟨n, rfl⟩ : ∃ n, fuel = n + 1 := ⟨fuel - 1, by omega⟩
    rfl
  | node red l i r ihl ihr =>
    intro q fuel res h hs hf
    obtain ⟨n, rfl⟩ : ∃ n, fuel = n + 1 := ⟨fuel - 1, by omega⟩
    obtain ⟨e, hl, hr⟩ := h
    obtain ⟨sl, sr, hli, hir⟩ := sorted_node hs
    simp only [depth] at hf
    rw [show (node red l i r).ptr = some i from rfl]
    simp only [rbNfind, rb_get e, ok_bind]
    have happ : Spec.notBelow cmp k (node red l i r).inorder = (Spec.notBelow cmp k l.inorder).or (Spec.notBelow cmp k (i :: r.inorder)) := by
      simp only [Spec.notBelow, inorder, List.find?_append]
    by_cases h1 : cmp k i < 0
    · rw [if_pos h1, ihl hl sl (by omega), happ]
      have : Spec.notBelow cmp k (i :: r.inorder) = some i := by
        rw [Spec.notBelow, List.find?_cons]
        simp only [show cmp k i ≤ 0 by omega, decide_true]
      rw [this, Option.or_assoc]
      simp
    · rw [if_neg h1]
      have hnone : Spec.notBelow cmp k l.inorder = none := by
        rw [Spec.notBelow, List.find?_eq_none]
        intro x hx
        have := (hc.anti x k).mp (cmp_lt_of_lt_of_le hc (hli x hx) (by
          by_cases h : cmp i k ≤ 0
          · exact h
          · exact absurd ((hc.anti k i).mpr (by omega)) h1))
        simp; omega
      rw [happ, hnone, Option.none_or]
      by_cases h2 : cmp k i > 0
      · rw [if_pos h2, ihr hr sr (by omega), Spec.notBelow, Spec.notBelow, List.find?_cons]
        simp only [show ¬ cmp k i ≤ 0 by omega, decide_false]
      · rw [if_neg h2, Spec.notBelow, List.find?_cons]
        simp only [show cmp k i ≤ 0 by omega, decide_true, Option.some_or]

theorem depth_mk {d red a i b} : a.depth < (mk d red a i b).depth := by cases d <;> simp [mk, depth] <;> omega

theorem rbMinmax_spec {d : Bool} {s : RbMem} : ∀ (n : Nat) {t : RbT} {q fuel parent}, t.depth ≤ n → t.Rep s.ent q → t.depth < fuel →
    rbMinmax s d fuel t.ptr parent = ok ((t.ord d).head?.or parent) := by
  intro n
  induction n with
  | zero =>
    intro t q fuel parent hn _ hf
    obtain ⟨m, rfl⟩ : ∃ n, fuel = n + 1 := ⟨fuel - 1, by omega⟩
    cases t with
    | leaf => simp [ptr, rbMinmax]
    | node => simp [depth] at hn
  | succ n ih =>
    intro t q fuel parent hn hr hf
    obtain ⟨m, rfl⟩ : ∃ n, fuel = n + 1 := ⟨fuel - 1, by omega⟩
    by_cases ht : t = leaf
    · subst ht; simp [ptr, rbMinmax]
    · obtain ⟨red, a, i, b, rfl⟩ := exists_mk d ht
      obtain ⟨e, h1, h2⟩ := rep_mk.mp hr
      have := depth_mk (d := d) (red := red) (a := a) (i := i) (b := b)
      simp only [ptr_mk, rbMinmax, rb_get e, ok_bind, RbEnt.of_child]
      rw [ih (by omega) h1 (by omega), ord_mk]
      cases ord d a <;> simp

theorem rbUp_spec {d : Bool} {m0 s} : ∀ {c : List RbFrame} {t : RbT} {x fuel : Nat}, RbHolds m0 s c t → t.ptr = some x → c.length < fuel → rbUp s d fuel (some x) = ok (after d c).head?
  | _, _, _, 0, _, _, hf => by omega
  | c, t, x, fuel + 1, h, hx, hf => by
    obtain ⟨red, a, i, b, rfl⟩ := exists_mk d (t := t) (by rintro rfl; cases hx)
    simp only [ptr_mk, Option.some.injEq] at hx
    subst hx
    have e := holds_get h
    match c, h, e, hf with
    | [], h, e, _ => simp [rbUp, rb_get e, topOf, after]
    | ⟨fd, fr, p, sib⟩ :: c, h, e, hf =>
      have ep := h.ctx.1
      have hap := holds_apart h (.inl (by cases d <;> simp [mk]))
      simp only [ptr_mk] at ep hap
      by_cases hd : fd = d
      · subst hd
        rw [rbUp, rb_get e, ok_bind, RbEnt.of_parent, if_pos (by simp [topOf])]
        show (do let pe ← s.get (some p); _) = _
        rw [rb_get ep, ok_bind, RbEnt.of_other, if_neg hap]
        simp [after, topOf]
      · have hd' : fd = !d := by revert hd; cases fd <;> cases d <;> decide
        subst hd'
        rw [rbUp, rb_get e, ok_bind, RbEnt.of_parent, if_pos (by simp [topOf])]
        show (do let pe ← s.get (some p); if some i = pe.child (!d) then rbUp s d fuel (some p) else _) = _
        rw [rb_get ep, ok_bind, RbEnt.of_child, if_pos rfl]
        rw [rbUp_spec (holds_plug.mp h) (ptr_mk ..) (by simp at hf; omega)]
        simp [after, hd]

theorem split_unique {i : Nat} : ∀ {xs ys xs' ys' : List Nat}, (xs ++ i :: ys).Nodup → xs ++ i :: ys = xs' ++ i :: ys' → ys = ys'
  | [], ys, [], ys', _, h => by simpa using h
  | [], ys, x :: xs', ys', hn, h => by
    simp only [List.nil_append, List.cons_append, List.cons.injEq] at h
    simp only [List.nil_append, List.nodup_cons] at hn
    exact absurd (by rw [h.2]; simp) hn.1
  | x :: xs, ys, [], ys', hn, h => by
    simp only [List.nil_append, List.cons_append, List.cons.injEq] at h
    simp only [List.cons_append, List.nodup_cons] at hn
    exact absurd (by rw [h.1]; simp) hn.1
  | x :: xs, ys, x' :: xs', ys', hn, h => by
    simp only [List.cons_append, List.cons.injEq] at h
    simp only [List.cons_append, List.nodup_cons] at hn
    exact split_unique hn.2 h.2

theorem ord_nodup {d : Bool} {t : RbT} (h : t.ids.Nodup) : (t.ord d).Nodup := by
  have := (ids_inorder t).nodup_iff.mp h
  cases d
  · exact (List.reverse_perm t.inorder).nodup_iff.mpr this
  · exact this

theorem rbNext_spec {d : Bool} {m0 s} {T : RbT} {i fuel : Nat} {xs ys : List Nat} (h : RbHolds m0 s [] T) (ho : T.ord d = xs ++ i :: ys) (hf : T.depth < fuel) :
    rbNext fuel s d i = ok ys.head? := by
  have hnd : (T.ord d).Nodup := ord_nodup (by simpa [cids] using h.nodup)
  have hmem : i ∈ T.ids := by
    rw [(ids_inorder T).mem_iff]
    have : i ∈ T.ord d := by rw [ho]; simp
    cases d
    · simpa [ord] using this
    · exact this
  obtain ⟨c, red, l, r, rfl, hdep⟩ := exists_zip hmem
  obtain ⟨red', a, i', b, hab⟩ := exists_mk d (t := node red l i r) (by simp)
  have hi : i' = i := by have := congrArg ptr hab; rw [ptr_mk] at this; simpa [ptr] using this.symm
  subst hi
  rw [hab] at h ho hnd hdep hf
  have hz := holds_root.mpr h
  have e := holds_get hz
  have hys : ys = b.ord d ++ after d c := by
    rw [ho] at hnd
    refine split_unique (xs := xs) (i := i') (xs' := before d c ++ a.ord d) hnd ?_
    rw [← ho, ord_plug, ord_mk]
    simp
  rw [hys, rbNext, rb_get e, ok_bind, RbEnt.of_other]
  by_cases hb : b = leaf
  · subst hb
    rw [if_neg (by simp [ptr])]
    simp only [ord_leaf, List.nil_append, RbEnt.of_parent]
    have hup := rbUp_spec (d := d) hz (ptr_mk ..) (fuel := fuel) (by omega)
    match c, hz, hup with
    | [], hz, hup => rw [if_neg (by simp [topOf]), hup]
    | ⟨fd, fr, p, sib⟩ :: c, hz, hup =>
      have ep := hz.ctx.1
      have hap := holds_apart hz (.inl (by cases d <;> simp [mk]))
      simp only [ptr_mk] at ep hap
      rw [if_pos (by simp [topOf])]
      show (do let pe ← s.get (some p); if some i' = pe.child d then ok (some p) else rbUp s d fuel (some i')) = _
      rw [rb_get ep, ok_bind, hup]
      by_cases hd : fd = d
      · subst hd
        rw [RbEnt.of_child, if_pos rfl]
        simp [after]
      · have hd' : d = !fd := by revert hd; cases fd <;> cases d <;> decide
        subst hd'
        rw [RbEnt.of_other, if_neg hap]
  · obtain ⟨c2, er, e2, u, hbe, hdir, hlen⟩ := exists_edge d hb
    subst hbe
    rw [if_pos (plug_ptr (by simp))]
    have hz2 : RbHolds m0 s (c2 ++ ⟨!d, red', i', a⟩ :: c) (mk d er leaf e2 u) := by
      refine holds_root.mpr ?_
      rw [plug_append, plug]
      simp only
      rw [mk_swap]
      exact holds_root.mp hz
    have hb2 : (plug c2 (mk d er leaf e2 u)).depth < (mk d red' a i' (plug c2 (mk d er leaf e2 u))).depth := by
      rw [← mk_swap d red']; exact depth_mk
    rw [rbEdge_spec hz2 hdir (by omega), ord_plug, before_nil hdir, ord_mk]
    simp

theorem rbVisit_spec {d : Bool} {m0 s} {T : RbT} {fuel : Nat} (h : RbHolds m0 s [] T) (hf : T.depth < fuel) : ∀ {ys xs : List Nat} {n : Nat}, T.ord d = xs ++ ys → ys.length < n →
    rbVisit fuel s d n ys.head? = ok ys
  | _, _, 0, _, hn => by omega
  | [], xs, n + 1, _, _ => rfl
  | y :: ys, xs, n + 1, ho, hn => by
    simp only [List.head?_cons, rbVisit, rbNext_spec h ho hf, ok_bind]
    rw [rbVisit_spec h hf (xs := xs ++ [y]) (by simpa using ho) (by simp at hn; omega), ok_bind]

theorem rbForeach_spec {d : Bool} {m0 s} {T : RbT} {fuel n : Nat} (h : RbHolds m0 s [] T) (hf : T.depth < fuel) (hn : T.inorder.length < n) :
    rbForeach fuel n s d = ok (T.ord d) := by
  have hroot : s.root = T.ptr := h.ctx
  rw [rbForeach, hroot, rbMinmax_spec (d := d) T.depth (Nat.le_refl _) h.tree hf, ok_bind, Option.or_none]
  refine rbVisit_spec h hf (xs := []) (by simp) ?_
  have : (T.ord d).length = T.inorder.length := by cases d <;> simp [ord]
  omega

/-! ## How deep a tree is -/

theorem ok_size : ∀ {t : RbT} {h : Nat}, t.Ok h → 2 ^ h ≤ t.inorder.length + 1
  | leaf, h, ho => by rw [ok_leaf.mp ho]; simp [inorder]
  | node true l i r, h, ho => by
    have := ok_size ho.2.2.1
    simp only [inorder, List.length_append, List.length_cons]
    omega
  | node false l i r, 0, ho => by cases ho
  | node false l i r, h + 1, ho => by
    have h1 := ok_size ho.1
    have h2 := ok_size ho.2
    simp only [inorder, List.length_append, List.length_cons, Nat.pow_succ]
    omega

theorem ok_depth : ∀ {t : RbT} {h : Nat}, t.Ok h → t.depth ≤ 2 * h + if t.isRed then 1 else 0
  | leaf, h, ho => by simp [depth]
  | node true l i r, h, ho => by
    have h1 := ok_depth ho.2.2.1
    have h2 := ok_depth ho.2.2.2
    rw [ho.1] at h1
    rw [ho.2.1] at h2
    simp only [Bool.false_eq_true, if_false] at h1 h2
    simp only [depth, isRed, if_true]
    omega
  | node false l i r, 0, ho => by cases ho
  | node false l i r, h + 1, ho => by
    have h1 := ok_depth ho.1
    have h2 := ok_depth ho.2
    simp only [depth, isRed, Bool.false_eq_true, if_false]
    split at h1 <;> split at h2 <;> omega

theorem depth_bound {t : RbT} {h : Nat} (ho : t.Ok h) (hb : t.isRed = false) : t.depth + 2 ≤ Spec.rbBound t.inorder.length := by
  have h1 := ok_depth ho
  rw [hb] at h1
  simp only [Bool.false_eq_true, if_false] at h1
  have h2 : h ≤ Nat.log2 (t.inorder.length + 1) := (Nat.le_log2 (by omega)).mpr (ok_size ho)
  simp only [Spec.rbBound]
  omega

theorem bound_mono {m n : Nat} (h : m ≤ n) : Spec.rbBound m ≤ Spec.rbBound n := by
  have : Nat.log2 (m + 1) ≤ Nat.log2 (n + 1) := by
    refine (Nat.le_log2 (by omega)).mpr ?_
    have := Nat.log2_self_le (n := m + 1) (by omega)
    omega
  simp only [Spec.rbBound]
  omega

/-! ## Histories -/

/-- A tree in memory that holds the elements `xs`. -/
def RbSet (cmp : Nat → Nat → Int) (s : RbMem) (xs : List Nat) : Prop :=
  ∃ T h, RbHolds s.ent s [] T ∧ T.Ok h ∧ T.isRed = false ∧ T.inorder = xs ∧ Spec.Ascending cmp xs

theorem rbStep_spec {cmp : Nat → Nat → Int} (hc : Spec.Compares cmp) {s : RbMem} {xs ys : List Nat} {op : RbOp} {r fuel} (h : RbSet cmp s xs) (he : ∀ i, op = .insert i → ∃ e, s.ent i = some e)
    (hs : Spec.setStep cmp xs op = some (ys, r)) (hf : Spec.rbBound xs.length ≤ fuel) :
    ∃ s', rbStep cmp fuel s op = ok (s', r) ∧ RbSet cmp s' ys ∧ (∀ j, j ∉ xs → op ≠ .insert j → s'.ent j = s.ent j) ∧ (∀ j, (∃ e, s.ent j = some e) → ∃ e, s'.ent j = some e) := by
  obtain ⟨T, k, g, ho, hb, rfl, hasc⟩ := h
  have hdep := depth_bound ho hb
  have hmem : ∀ j, j ∉ T.inorder ↔ j ∉ T.ids := fun j => by rw [(ids_inorder T).mem_iff]
  cases op with
  | insert i =>
    obtain ⟨ee, he⟩ := he i rfl
    obtain ⟨s', T', k', r', q, g', hst, ho', hb', hfr, hasc'⟩ := rbInsert_spec hc g ho hb hasc he (fuel := fuel) (by omega)
    rw [hs, Option.some.injEq, Prod.mk.injEq] at hst
    obtain ⟨rfl, rfl⟩ := hst
    refine ⟨s', q, ⟨T', k', g', ho', hb', rfl, hasc'⟩, fun j hj hj' => hfr j ((hmem j).mp hj) (by rintro rfl; exact hj' rfl), ?_⟩
    intro j hj
    by_cases h1 : j ∈ T'.ids
    · exact g'.tree.mem j h1
    · by_cases h2 : j ∈ T.ids
      · exfalso
        refine h1 ((ids_inorder T').mem_iff.mpr ?_)
        have h3 := (ids_inorder T).mem_iff.mp h2
        simp only [Spec.setStep] at hs
        cases hm : Spec.member cmp i T.inorder with
        | some x => rw [hm] at hs; simp only [Option.some.injEq, Prod.mk.injEq] at hs; rw [← hs.1]; exact h3
        | none =>
          rw [hm] at hs
          simp only [Option.some.injEq, Prod.mk.injEq] at hs
          rw [← hs.1]
          have hne : cmp i j ≠ 0 := by
            have := List.find?_eq_none.mp hm j h3
            simpa using this
          simp only [List.mem_append, List.mem_filter, List.mem_cons, decide_eq_true_eq]
          rcases Int.lt_trichotomy (cmp i j) 0 with h | h | h
          · exact .inr (.inr ⟨h3, h⟩)
          · exact absurd h hne
          · exact .inl ⟨h3, h⟩
      · by_cases h4 : j = i
        · subst h4
          simp only [Spec.setStep] at hs
          cases hm : Spec.member cmp j T.inorder with
          | some x =>
            have : rbInsert cmp fuel s j = ok (s, some x) := by
              obtain ⟨hx1, hx2⟩ : x ∈ T.inorder ∧ cmp j x = 0 := ⟨List.mem_of_find?_eq_some hm, by have := List.find?_some hm; simpa using this⟩
              rcases rbDescend_spec hc (elm := j) (comp := 0) g hasc (fuel := fuel) (by omega) (by simp) with ⟨y, hy, z1, z2⟩ | ⟨c', comp', as, bs, z1, z2, z3, z4, z5, z6, z7, z8⟩
              · have := (member_unique hc hasc hy z1).symm.trans hm
                simp only [Option.some.injEq] at this
                subst this
                have hroot : s.root = T.ptr := g.ctx
                simp only [topOf] at z2
                simp only [rbInsert, hroot, z2, ok_bind, ne_eq, reduceCtorEq, not_false_eq_true, if_true]
              · rw [z4, member_none z7 z8] at hm
                cases hm
            rw [q, Outcome.ok.injEq, Prod.mk.injEq] at this
            rw [this.1]
            exact hj
          | none =>
            rw [hm] at hs
            simp only [Option.some.injEq, Prod.mk.injEq] at hs
            exact absurd ((ids_inorder T').mem_iff.mpr (by rw [← hs.1]; simp)) h1
        · rw [hfr j h2 h4]; exact hj
  | remove i =>
    simp only [Spec.setStep] at hs
    by_cases hi : i ∈ T.inorder
    · rw [if_pos hi] at hs
      simp only [Option.some.injEq, Prod.mk.injEq] at hs
      obtain ⟨rfl, rfl⟩ := hs
      obtain ⟨s', T', k', q, g', hin, ho', hb', hfr, hold⟩ := rbRemove_spec g ((ids_inorder T).mem_iff.mpr hi) ho hb (fuel := fuel) (by omega)
      refine ⟨s', by simp only [rbStep, q, ok_bind], ⟨T', k', g', ho', hb', hin, hasc.sublist List.erase_sublist⟩, fun j hj _ => hfr j ((hmem j).mp hj), ?_⟩
      intro j hj
      by_cases h1 : j ∈ T'.ids
      · exact g'.tree.mem j h1
      · by_cases h2 : j = i
        · subst h2; exact hold
        · rw [hfr j]
          · exact hj
          · rw [(ids_inorder T).mem_iff]
            rw [(ids_inorder T').mem_iff, hin] at h1
            exact fun h => h1 ((List.mem_erase_of_ne h2).mpr h)
    · rw [if_neg hi] at hs; cases hs

theorem setStep_length {cmp : Nat → Nat → Int} {xs ys : List Nat} {op r} (hs : Spec.setStep cmp xs op = some (ys, r)) : ys.length ≤ xs.length + 1 := by
  cases op with
  | insert i =>
    simp only [Spec.setStep] at hs
    cases hm : Spec.member cmp i xs with
    | some x => rw [hm] at hs; simp only [Option.some.injEq, Prod.mk.injEq] at hs; rw [← hs.1]; omega
    | none =>
      rw [hm] at hs
      simp only [Option.some.injEq, Prod.mk.injEq] at hs
      rw [← hs.1]
      clear hs hm
      induction xs with
      | nil => simp
      | cons x xs ih =>
        simp only [List.filter_cons, List.length_append, List.length_cons] at ih ⊢
        split <;> split <;> simp_all <;> omega
  | remove i =>
    simp only [Spec.setStep] at hs
    split at hs
    · simp only [Option.some.injEq, Prod.mk.injEq] at hs
      rw [← hs.1]
      have := List.length_erase_le (a := i) (l := xs)
      omega
    · cases hs

theorem rbRun_spec {cmp : Nat → Nat → Int} (hc : Spec.Compares cmp) {fuel : Nat} : ∀ {ops : List RbOp} {s : RbMem} {xs ys : List Nat} {rs}, RbSet cmp s xs →
    (∀ i, .insert i ∈ ops → ∃ e, s.ent i = some e) → Spec.setRun cmp ops xs = some (ys, rs) → Spec.rbBound (xs.length + ops.length) ≤ fuel →
    ∃ s', rbRun cmp fuel ops s = ok (s', rs) ∧ RbSet cmp s' ys ∧ (∀ j, j ∉ xs → .insert j ∉ ops → s'.ent j = s.ent j) ∧ (∀ j, (∃ e, s.ent j = some e) → ∃ e, s'.ent j = some e) ∧
      ys.length ≤ xs.length + ops.length ∧ (∀ y ∈ ys, y ∈ xs ∨ .insert y ∈ ops)
  | [], s, xs, ys, rs, h, _, hr, _ => by
    simp only [Spec.setRun, Option.some.injEq, Prod.mk.injEq] at hr
    obtain ⟨rfl, rfl⟩ := hr
    exact ⟨s, rfl, h, fun _ _ _ => rfl, fun _ h => h, by simp, fun y hy => .inl hy⟩
  | op :: ops, s, xs, zs, rs, h, he, hr, hf => by
    simp only [Spec.setRun, Option.bind_eq_bind] at hr
    obtain ⟨⟨ys, r⟩, h1, hr⟩ := Option.bind_eq_some_iff.mp hr
    obtain ⟨⟨zs', rs'⟩, h2, hr⟩ := Option.bind_eq_some_iff.mp hr
    simp only [Option.some.injEq, Prod.mk.injEq] at hr
    obtain ⟨rfl, rfl⟩ := hr
    simp only [List.length_cons] at hf
    have hlen := setStep_length h1
    obtain ⟨s1, q1, g1, f1, d1⟩ := rbStep_spec hc h (fun i hi => he i (by simp [hi])) h1 (fuel := fuel) (Nat.le_trans (bound_mono (by omega)) hf)
    obtain ⟨s2, q2, g2, f2, d2, l2, m2⟩ := rbRun_spec hc g1 (fun i hi => d1 _ (he i (by simp [hi]))) h2 (Nat.le_trans (bound_mono (by omega)) hf)
    have hsub : ∀ y ∈ ys, y ∈ xs ∨ op = .insert y := by
      intro y hy
      cases op with
      | insert i =>
        simp only [Spec.setStep] at h1
        cases hm : Spec.member cmp i xs with
        | some x => rw [hm] at h1; simp only [Option.some.injEq, Prod.mk.injEq] at h1; rw [h1.1]; exact .inl hy
        | none =>
          rw [hm] at h1
          simp only [Option.some.injEq, Prod.mk.injEq] at h1
          rw [← h1.1] at hy
          simp only [List.mem_append, List.mem_filter, List.mem_cons] at hy
          rcases hy with h | h | h
          · exact .inl h.1
          · exact .inr (by rw [h])
          · exact .inl h.1
      | remove i =>
        simp only [Spec.setStep] at h1
        split at h1
        · simp only [Option.some.injEq, Prod.mk.injEq] at h1
          rw [← h1.1] at hy
          exact .inl (List.mem_of_mem_erase hy)
        · cases h1
    refine ⟨s2, by simp only [rbRun, q1, ok_bind, q2], g2, ?_, fun j hj => d2 j (d1 j hj), by simp only [List.length_cons]; omega, ?_⟩
    · intro j hj hops
      have hj1 : op ≠ .insert j := by rintro rfl; exact hops (by simp)
      rw [f2 j (fun hy => ?_) (fun ho => hops (by simp [ho])), f1 j hj hj1]
      exact (hsub j hy).elim hj hj1
    · intro y hy
      rcases m2 y hy with h | h
      · rcases hsub y h with h | h
        · exact .inl h
        · exact .inr (by simp [h])
      · exact .inr (by simp [h])

theorem rbSet_empty {cmp : Nat → Nat → Int} {s : RbMem} (h : s.root = none) : RbSet cmp s [] :=
  ⟨leaf, 0, ⟨h, trivial, by simp [cids, ids], fun _ _ => rfl⟩, rfl, rfl, rfl, .nil⟩

/-- The states a tree can be in: after a series of calls on an empty one, with what an ordered set would hold then. -/
structure RbReached (cmp : Nat → Nat → Int) (s : RbMem) (xs : List Nat) : Prop where
  calls : ∃ s0 ops fuel rs, s0.root = none ∧ (∀ i, .insert i ∈ ops → s0.ent i ≠ none) ∧ Spec.rbBound ops.length ≤ fuel ∧ rbRun cmp fuel ops s0 = ok (s, rs) ∧
    Spec.setRun cmp ops [] = some (xs, rs)

theorem reached_set {cmp : Nat → Nat → Int} (hc : Spec.Compares cmp) {s : RbMem} {xs : List Nat} (h : RbReached cmp s xs) : RbSet cmp s xs := by
  obtain ⟨s0, ops, fuel, rs, h1, h2, h3, h4, h5⟩ := h.calls
  obtain ⟨s', q, g, _⟩ := rbRun_spec hc (rbSet_empty h1) (fun i hi => Option.ne_none_iff_exists'.mp (h2 i hi)) h5 (fuel := fuel) (by simpa using h3)
  rw [h4, Outcome.ok.injEq, Prod.mk.injEq] at q
  rw [q.1]
  exact g

/-- **C99**: any series of insertions and removals on an empty tree does to it what it does to an ordered set: nothing is undefined, no loop goes on for ever, every call returns what it
should, and elements that are not inserted are not touched. -/
theorem C99_history {cmp : Nat → Nat → Int} (hc : Spec.Compares cmp) {ops : List RbOp} {s : RbMem} {xs : List Nat} {rs} {fuel : Nat} (hroot : s.root = none)
    (he : ∀ i, .insert i ∈ ops → s.ent i ≠ none) (hr : Spec.setRun cmp ops [] = some (xs, rs)) (hf : Spec.rbBound ops.length ≤ fuel) :
    ∃ s', rbRun cmp fuel ops s = ok (s', rs) ∧ Spec.Ascending cmp xs ∧ ∀ i, .insert i ∉ ops → s'.ent i = s.ent i := by
  obtain ⟨s', q, ⟨_, _, _, _, _, _, g⟩, f, _⟩ := rbRun_spec hc (rbSet_empty hroot) (fun i hi => Option.ne_none_iff_exists'.mp (he i hi)) hr (fuel := fuel) (by simpa using hf)
  exact ⟨s', q, g, fun i hi => f i (by simp) hi⟩

/-- **C99**: a further call on a tree of `n` elements returns what it should, and its loops run at most `2 log2 (n + 1) + 2` times. -/
theorem C99_call {cmp : Nat → Nat → Int} (hc : Spec.Compares cmp) {s : RbMem} {xs ys : List Nat} {op : RbOp} {r fuel} (h : RbReached cmp s xs)
    (he : ∀ i, op = .insert i → s.ent i ≠ none) (hs : Spec.setStep cmp xs op = some (ys, r)) (hf : Spec.rbBound xs.length ≤ fuel) :
    ∃ s', rbStep cmp fuel s op = ok (s', r) := by
  obtain ⟨s', q, _⟩ := rbStep_spec hc (reached_set hc h) (fun i hi => Option.ne_none_iff_exists'.mp (he i hi)) hs hf
  exact ⟨s', q⟩

/-- **C99**: what the lookups find, within as many iterations. -/
theorem C99_lookup {cmp : Nat → Nat → Int} (hc : Spec.Compares cmp) {s : RbMem} {xs : List Nat} {fuel} (h : RbReached cmp s xs) (hf : Spec.rbBound xs.length ≤ fuel) :
    (∀ k, rbFind cmp s k fuel s.root = ok (Spec.member cmp k xs)) ∧ (∀ k, rbNfind cmp s k fuel s.root none = ok (Spec.notBelow cmp k xs)) ∧
    rbMinmax s true fuel s.root none = ok xs.head? ∧ rbMinmax s false fuel s.root none = ok xs.getLast? ∧
    (∀ as i bs, xs = as ++ i :: bs → rbNext fuel s true i = ok bs.head? ∧ rbNext fuel s false i = ok as.getLast?) := by
  obtain ⟨T, k, g, ho, hb, rfl, hasc⟩ := reached_set hc h
  have hdep := depth_bound ho hb
  have hroot : s.root = T.ptr := g.ctx
  rw [hroot]
  refine ⟨fun k => rbFind_spec hc g.tree hasc (by omega), fun k => by rw [rbNfind_spec hc g.tree hasc (by omega), Option.or_none], ?_, ?_, ?_⟩
  · rw [rbMinmax_spec T.depth (Nat.le_refl _) g.tree (by omega), Option.or_none]; rfl
  · rw [rbMinmax_spec T.depth (Nat.le_refl _) g.tree (by omega), Option.or_none]
    simp [ord]
  · intro as i bs hx
    refine ⟨rbNext_spec g (xs := as) (by rw [ord_true, hx]) (by omega), ?_⟩
    rw [rbNext_spec g (xs := bs.reverse) (ys := as.reverse) (by simp [ord, hx]) (by omega)]
    simp

/-- **C99**: the loops over all elements visit every element once, in order or in the opposite order. -/
theorem C99_foreach {cmp : Nat → Nat → Int} (hc : Spec.Compares cmp) {s : RbMem} {xs : List Nat} {fuel n} (h : RbReached cmp s xs) (hf : Spec.rbBound xs.length ≤ fuel) (hn : xs.length < n) :
    rbForeach fuel n s true = ok xs ∧ rbForeach fuel n s false = ok xs.reverse := by
  obtain ⟨T, k, g, ho, hb, rfl, hasc⟩ := reached_set hc h
  have hdep := depth_bound ho hb
  exact ⟨rbForeach_spec g (by omega) hn, rbForeach_spec g (by omega) hn⟩

/-! ## The hypotheses can be met -/

/-- Addresses compared by their last decimal digit. -/
def digitCmp (a b : Nat) : Int := (a % 10 : Nat) - (b % 10 : Nat)

theorem digitCmp_compares : Spec.Compares digitCmp := ⟨fun a b => by simp only [digitCmp]; omega, fun a b c => by simp only [digitCmp]; omega⟩

/-- Memory with a hundred elements and an empty head. -/
def hundred : RbMem := ⟨none, fun i => if i < 100 then some ⟨some 77, some 78, none, false⟩ else none⟩

/-- A history. -/
def rbHistory : List RbOp := [.insert 5, .insert 13, .insert 7, .insert 1, .insert 25, .insert 9, .insert 22, .remove 5, .insert 36, .remove 1, .insert 5, .remove 7, .remove 9]

theorem rbHistory_set : Spec.setRun digitCmp rbHistory [] =
    some ([22, 13, 5, 36], [none, none, none, none, some 5, none, none, some 5, none, some 1, none, some 7, some 9]) := by decide +kernel

example : ∃ s', rbRun digitCmp 9 rbHistory hundred = ok (s', [none, none, none, none, some 5, none, none, some 5, none, some 1, none, some 7, some 9]) := by
  obtain ⟨s', h, _⟩ := C99_history digitCmp_compares (s := hundred) (fuel := 9) rfl (by
    intro i hi
    simp only [rbHistory, List.mem_cons, RbOp.insert.injEq, reduceCtorEq, List.not_mem_nil, or_false, false_or] at hi
    rcases hi with rfl | rfl | rfl | rfl | rfl | rfl | rfl | rfl | rfl <;> decide) rbHistory_set (by decide)
  exact ⟨s', h⟩

end Wdns
