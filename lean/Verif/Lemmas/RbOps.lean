import Verif.Lemmas.RbInsert
import Verif.Lemmas.RbRemove
import Mathlib.Data.List.Induction

/-!
# Lemmas: taking elements out of red-black trees
-/

namespace Wdns
open Outcome RbT

theorem cids_append (c1 c2 : List RbFrame) : cids (c1 ++ c2) = cids c1 ++ cids c2 := by
  induction c1 with
  | nil => rfl
  | cons f c1 ih => simp [cids, ih]

theorem topOf_mem {c : List RbFrame} {i : Nat} (h : topOf c = some i) : i ∈ cids c := by
  cases c with
  | nil => cases h
  | cons f c => simp only [topOf, Option.some.injEq] at h; subst h; simp [cids]

/-- An element with at most one child is taken out. -/
theorem unlink_holds {m0 s c d red i} {u : RbT} (h : RbHolds m0 s c (.mk d red .leaf i u)) :
    ∃ s1 s2, s.adopt u.ptr (topOf c) = ok s1 ∧ s1.relink (topOf c) (some i) u.ptr = ok s2 ∧ RbHolds s.ent s2 c u := by
  obtain ⟨hc, ht, hn, hf⟩ := h
  obtain ⟨hi, -, hu⟩ := rep_mk.mp ht
  rw [ptr_mk] at hc
  have hn := (List.Perm.append_left (cids c) (ids_mk ..)).nodup_iff.mp hn
  simp only [ids, List.nil_append, List.nodup_append, List.nodup_cons, List.mem_cons] at hn
  obtain ⟨nc, ⟨iu, nu⟩, dj⟩ := hn
  obtain ⟨s1, q1, r1, t1, o1⟩ := adopt_rep (q' := topOf c) hu nu
  have hc1 : RepC s1.ent s1.root c (some i) := by
    rw [r1]
    exact hc.congr fun j hj => o1 j fun h => dj j hj j (.inr h) rfl
  obtain ⟨s2, q2, c2, o2⟩ := relink_holds (p' := u.ptr) rfl hc1 nc (fun h => dj i h i (.inl rfl) rfl)
  refine ⟨s1, s2, q1, q2, c2, t1.congr fun j hj => o2 j fun h => dj j (topOf_mem h) j (.inr hj) rfl, ?_, ?_⟩
  · rw [List.nodup_append]
    exact ⟨nc, nu, fun a ha b hb => dj a ha b (.inr hb)⟩
  · intro j hj
    simp only [List.mem_append, not_or] at hj
    rw [o2 j (fun h => hj.1 (topOf_mem h)), o1 j hj.2]

/-- An element takes the place of another one. -/
theorem replace_holds {m0 s c red l old r e ee} (h : RbHolds m0 s c (node red l old r)) (hl : l ≠ .leaf) (hne : e ∉ cids c ++ (node red l old r).ids) (he : s.ent e = some ee) :
    ∃ s1 s2 s3 s4 oe3, s.ent old = some ⟨l.ptr, r.ptr, topOf c, red⟩ ∧ s.mod (some e) (fun _ => ⟨l.ptr, r.ptr, topOf c, red⟩) = ok s1 ∧
      s1.relink (topOf c) (some old) (some e) = ok s2 ∧ s2.ent old = some ⟨l.ptr, r.ptr, topOf c, red⟩ ∧ s2.setParent l.ptr (some e) = ok s3 ∧ s3.ent old = some oe3 ∧
      oe3.right = r.ptr ∧ s3.adopt r.ptr (some e) = ok s4 ∧ s4.ent old = some oe3 ∧ RbHolds s.ent s4 c (node red l e r) := by
  obtain ⟨hc, ⟨hi, tl, tr⟩, hn, hf⟩ := h
  simp only [ids, List.mem_append, List.mem_cons, not_or] at hne
  obtain ⟨ec, eo, el, er⟩ := hne
  simp only [ids, List.nodup_append, List.nodup_cons, List.mem_append, List.mem_cons, not_or] at hn
  obtain ⟨nc, ⟨⟨ol, or'⟩, nl, nr, lr⟩, dj⟩ := hn
  let s1 : RbMem := ⟨s.root, fun j => if j = e then some ⟨l.ptr, r.ptr, topOf c, red⟩ else s.ent j⟩
  have q1 : s.mod (some e) (fun _ => ⟨l.ptr, r.ptr, topOf c, red⟩) = ok s1 := rb_mod he _
  have o1 : ∀ j, j ≠ e → s1.ent j = s.ent j := fun j hj => by simp only [s1]; rw [if_neg hj]
  have hc1 : RepC s1.ent s1.root c (some old) := hc.congr fun j hj => o1 j (by rintro rfl; exact ec hj)
  obtain ⟨s2, q2, c2, o2⟩ := relink_holds (p' := some e) rfl hc1 nc (fun h => dj old h old (.inl rfl) rfl)
  have hold : topOf c ≠ some old := fun h => dj old (topOf_mem h) old (.inl rfl) rfl
  have e2 : s2.ent old = some ⟨l.ptr, r.ptr, topOf c, red⟩ := by rw [o2 old hold, o1 old (fun h => eo h.symm), hi]
  have tl2 : l.Rep s2.ent (some old) := tl.congr fun j hj => by
    rw [o2 j (fun h => dj j (topOf_mem h) j (.inr (.inl hj)) rfl), o1 j (by rintro rfl; exact el hj)]
  obtain ⟨s3, q3, r3, t3, o3⟩ := adopt_rep (q' := some e) tl2 nl
  have q3' : s2.setParent l.ptr (some e) = ok s3 := by
    rw [← q3, RbMem.adopt, if_pos]
    cases l with
    | leaf => exact absurd rfl hl
    | node => simp [ptr]
  have e3 : s3.ent old = some ⟨l.ptr, r.ptr, topOf c, red⟩ := by rw [o3 old ol, e2]
  have tr3 : r.Rep s3.ent (some old) := tr.congr fun j hj => by
    rw [o3 j (fun h => lr j h j hj rfl), o2 j (fun h => dj j (topOf_mem h) j (.inr (.inr hj)) rfl), o1 j (by rintro rfl; exact er hj)]
  obtain ⟨s4, q4, r4, t4, o4⟩ := adopt_rep (q' := some e) tr3 nr
  refine ⟨s1, s2, s3, s4, _, hi, q1, q2, e2, q3', e3, rfl, q4, by rw [o4 old or', e3], ?_, ⟨?_, ?_, t4⟩, ?_, ?_⟩
  · show RepC s4.ent s4.root c (some e)
    rw [r4, r3]
    refine c2.congr fun j hj => ?_
    rw [o4 j (fun h => dj j hj j (.inr (.inr h)) rfl), o3 j (fun h => dj j hj j (.inr (.inl h)) rfl)]
  · rw [o4 e er, o3 e el, o2 e (fun h => ec (topOf_mem h))]
    simp [s1]
  · exact t3.congr fun j hj => o4 j fun h => lr j hj j h rfl
  · simp only [ids, List.nodup_append, List.nodup_cons, List.mem_append, List.mem_cons, not_or]
    refine ⟨nc, ⟨⟨el, er⟩, nl, nr, lr⟩, fun a ha b hb => ?_⟩
    rcases hb with rfl | hb
    · rintro rfl; exact ec ha
    · exact dj a ha b (.inr hb)
  · intro j hj
    simp only [ids, List.mem_append, List.mem_cons, not_or] at hj
    rw [o4 j hj.2.2.2, o3 j hj.2.2.1, o2 j (fun h => hj.1 (topOf_mem h)), o1 j hj.2.1]

/-- The way to the first element in direction `d`. -/
theorem exists_edge (d : Bool) : ∀ {t : RbT}, t ≠ leaf → ∃ c red e u, plug c (mk d red leaf e u) = t ∧ (∀ f ∈ c, f.d = d) ∧ c.length < t.depth
  | leaf, h => absurd rfl h
  | node red l i r, _ => by
    have key : ∀ a b, node red l i r = mk d red a i b → (a ≠ leaf → ∃ c red e u, plug c (mk d red leaf e u) = a ∧ (∀ f ∈ c, f.d = d) ∧ c.length < a.depth) → a.depth ≤ max l.depth r.depth →
        ∃ c red' e u, plug c (mk d red' leaf e u) = node red l i r ∧ (∀ f ∈ c, f.d = d) ∧ c.length < (node red l i r).depth := by
      intro a b hab ih hle
      by_cases ha : a = leaf
      · subst ha
        exact ⟨[], red, i, b, hab.symm, by simp, by simp [depth]⟩
      · obtain ⟨c, red', e, u, h1, h2, h3⟩ := ih ha
        refine ⟨c ++ [⟨d, red, i, b⟩], red', e, u, ?_, ?_, ?_⟩
        · rw [plug_append, h1]; exact hab.symm
        · intro f hf
          simp only [List.mem_append, List.mem_singleton] at hf
          rcases hf with hf | rfl
          · exact h2 f hf
          · rfl
        · simp only [depth, List.length_append, List.length_cons, List.length_nil]; omega
    cases d
    · exact key r l rfl (fun h => exists_edge false h) (by omega)
    · exact key l r rfl (fun h => exists_edge true h) (by omega)

theorem plug_ptr : ∀ {c : List RbFrame} {t : RbT}, t.ptr ≠ none → (plug c t).ptr ≠ none
  | [], _, h => h
  | f :: c, _, _ => plug_ptr (c := c) (by simp)

theorem plug_ids : ∀ (c : List RbFrame) (t : RbT), (cids c ++ t.ids).Perm (plug c t).ids
  | [], t => .refl _
  | f :: c, t => by
    refine List.Perm.trans ?_ (plug_ids c _)
    refine List.Perm.trans ?_ (List.Perm.append_left _ (ids_mk ..).symm)
    simp only [cids, List.cons_append, List.append_assoc]
    refine List.Perm.trans ?_ List.perm_middle.symm
    refine .cons _ ?_
    refine List.perm_append_comm.trans ?_
    simp only [List.append_assoc]
    exact .refl _

theorem RbHolds.self {m0 s c t} (h : RbHolds m0 s c t) : RbHolds s.ent s c t := ⟨h.ctx, h.tree, h.nodup, fun _ _ => rfl⟩

/-- `rbEdge` finds it. -/
theorem rbEdge_spec {d : Bool} : ∀ {c0 c : List RbFrame} {m0 s red e u} {fuel : Nat}, RbHolds m0 s (c ++ c0) (mk d red leaf e u) → (∀ f ∈ c, f.d = d) → c.length < fuel →
    rbEdge s d fuel (plug c (mk d red leaf e u)).ptr = ok (some e) := by
  have h0 : ∀ {m0 s c0 red e u} {fuel : Nat}, RbHolds m0 s c0 (mk d red leaf e u) → 0 < fuel → rbEdge s d fuel (some e) = ok (some e) := by
    intro m0 s c0 red e u fuel h hf
    obtain ⟨n, rfl⟩ : ∃ n, fuel = n + 1 := ⟨fuel - 1, by omega⟩
    have e1 := holds_get h
    simp [rbEdge, rb_get e1, ptr]
  intro c0 c
  induction c using List.reverseRecOn generalizing c0 with
  | nil =>
    intro m0 s red e u fuel h _ hf
    simp only [plug, ptr_mk]
    exact h0 h (by simpa using hf)
  | append_singleton c f ih =>
    intro m0 s red e u fuel h hd hf
    obtain ⟨n, rfl⟩ : ∃ n, fuel = n + 1 := ⟨fuel - 1, by simp at hf; omega⟩
    have hfd : f.d = d := hd f (by simp)
    have hd' : ∀ g ∈ c, g.d = d := fun g hg => hd g (by simp [hg])
    have h' : RbHolds m0 s (c ++ (f :: c0)) (mk d red leaf e u) := by simpa using h
    have h2 : RbHolds m0 s (f :: c0) (plug c (mk d red leaf e u)) := by
      have := holds_root.mp h'
      rw [plug_append] at this
      exact holds_root.mpr this
    have e1 := h2.ctx.1
    rw [plug_append]
    have hp : (plug [f] (plug c (mk d red leaf e u))).ptr = some f.i := by simp [plug]
    have hne : (plug c (mk d red leaf e u)).ptr ≠ none := by
      cases c with
      | nil => simp [plug]
      | cons g c => exact plug_ptr (c := g :: c) (by simp)
    rw [hp, rbEdge, rb_get e1, ok_bind, hfd, RbEnt.of_child, if_pos hne]
    exact ih h' hd' (by simp at hf; omega)

/-- `rbClimb` ends. -/
theorem rbClimb_spec {s : RbMem} : ∀ {c : List RbFrame} {p} {fuel : Nat}, RepC s.ent s.root c p → c.length < fuel → rbClimb s fuel (topOf c) = ok ()
  | _, _, 0, _, h => by omega
  | [], _, fuel + 1, _, _ => rfl
  | f :: c, p, fuel + 1, ⟨h1, _, h2⟩, hf => by
    simp only [topOf, rbClimb, ne_eq, reduceCtorEq, not_false_eq_true, if_true, rb_get h1, ok_bind, RbEnt.of_parent]
    exact rbClimb_spec h2 (by simp at hf; omega)

/-- The context with another element in the place of one of its frames. -/
theorem ctxOk_swap {c0 : List RbFrame} {d red i j u} : ∀ {c : List RbFrame} {rd h}, CtxOk rd h (c ++ ⟨d, red, i, u⟩ :: c0) ↔ CtxOk rd h (c ++ ⟨d, red, j, u⟩ :: c0)
  | [], rd, h => Iff.rfl
  | f :: c, rd, h => by
    show (_ ∧ if f.red then _ ∧ _ ∧ CtxOk true h (c ++ _) else CtxOk false (h + 1) (c ++ _)) ↔ (_ ∧ if f.red then _ ∧ _ ∧ CtxOk true h (c ++ _) else CtxOk false (h + 1) (c ++ _))
    rw [ctxOk_swap (c := c) (j := j) (rd := true), ctxOk_swap (c := c) (j := j) (rd := false)]

theorem topOf_append {c c0 : List RbFrame} (h : c ≠ []) : topOf (c ++ c0) = topOf c := by
  cases c with
  | nil => exact absurd rfl h
  | cons f c => rfl

/-- Every element of a tree has a place. -/
theorem exists_zip : ∀ {t : RbT} {i : Nat}, i ∈ t.ids → ∃ c red l r, plug c (node red l i r) = t ∧ c.length + (node red l i r).depth ≤ t.depth
  | leaf, _, h => by cases h
  | node red l j r, i, h => by
    simp only [ids, List.mem_cons, List.mem_append] at h
    rcases h with rfl | h | h
    · exact ⟨[], red, l, r, rfl, by simp⟩
    · obtain ⟨c, red', l', r', h1, h2⟩ := exists_zip h
      refine ⟨c ++ [⟨true, red, j, r⟩], red', l', r', by rw [plug_append, h1]; rfl, ?_⟩
      simp only [depth, List.length_append, List.length_cons, List.length_nil] at h2 ⊢
      omega
    · obtain ⟨c, red', l', r', h1, h2⟩ := exists_zip h
      refine ⟨c ++ [⟨false, red, j, l⟩], red', l', r', by rw [plug_append, h1]; rfl, ?_⟩
      simp only [depth, List.length_append, List.length_cons, List.length_nil] at h2 ⊢
      omega

/-- The elements before and after the hole, in direction `d`. -/
def before (d : Bool) : List RbFrame → List Nat
  | [] => []
  | f :: c => if f.d = d then before d c else before d c ++ (f.sib.ord d ++ [f.i])

/-- The elements after the hole, in direction `d`. -/
def after (d : Bool) : List RbFrame → List Nat
  | [] => []
  | f :: c => if f.d = d then f.i :: (f.sib.ord d ++ after d c) else after d c

theorem ord_plug {d : Bool} : ∀ {c : List RbFrame} {t : RbT}, (plug c t).ord d = before d c ++ t.ord d ++ after d c
  | [], t => by simp [plug, before, after]
  | f :: c, t => by
    rw [plug, ord_plug (c := c)]
    by_cases hf : f.d = d
    · subst hf
      simp [ord_mk, before, after]
    · have : f.d = !d := by revert hf; cases f.d <;> cases d <;> decide
      rw [this, ord_swap]
      simp [before, after, hf]

theorem inorder_plug {c : List RbFrame} {t : RbT} : (plug c t).inorder = before true c ++ t.inorder ++ after true c := ord_plug (d := true)

theorem before_nil {d : Bool} : ∀ {c : List RbFrame}, (∀ f ∈ c, f.d = d) → before d c = []
  | [], _ => rfl
  | f :: c, h => by
    rw [before, if_pos (h f (by simp))]
    exact before_nil fun g hg => h g (by simp [hg])

/-- `RB_REMOVE` up to the label `color`. -/
theorem rbDetach_spec {m0 s fuel old} {T : RbT} (hs : RbHolds m0 s [] T) (ho : old ∈ T.ids) {h0} (hok : T.Ok h0) (hblk : T.isRed = false) (hf : T.depth + 1 < fuel) :
    ∃ s' c t red h, rbDetach fuel s (some old) = ok (s', topOf c, t.ptr, red) ∧ RbHolds s'.ent s' c t ∧ (plug c t).inorder = T.inorder.erase old ∧ t.Ok h ∧
      (if red then t.isRed = false ∧ CtxOk true h c else CtxOk false (h + 1) c) ∧ c.length ≤ T.depth ∧ (∀ j, j ∉ T.ids → s'.ent j = s.ent j) ∧ ∃ oe, s'.ent old = some oe := by
  obtain ⟨c, red, l, r, rfl, hdep⟩ := exists_zip ho
  have hz := holds_root.mpr hs
  obtain ⟨k, o1, o2⟩ := unplug_ok hok hblk
  have eo : s.ent old = some ⟨l.ptr, r.ptr, topOf c, red⟩ := hz.tree.1
  have hnd : (plug c (node red l old r)).inorder.Nodup := (ids_inorder _).nodup_iff.mp (by simpa [cids] using hs.nodup)
  have herase : ∀ t : RbT, t.inorder = l.inorder ++ r.inorder → (plug c t).inorder = (plug c (node red l old r)).inorder.erase old := by
    intro t ht
    rw [inorder_plug] at hnd ⊢
    rw [inorder_plug]
    have hm : old ∉ before true c ++ l.inorder := by
      intro hm
      simp only [inorder, List.append_assoc, List.cons_append] at hnd
      rw [← List.append_assoc] at hnd
      exact (List.nodup_append.mp hnd).2.2 old hm old (by simp) rfl
    rw [ht]
    simp only [inorder, List.append_assoc, List.cons_append]
    rw [← List.append_assoc (before true c) l.inorder (old :: _), List.erase_append_right _ hm]
    simp
  -- at most one child
  have honly : ∀ d u, node red l old r = mk d red leaf old u → rbUnlink s (some old) u.ptr = rbDetach fuel s (some old) → u.inorder = l.inorder ++ r.inorder →
      ∃ s' c' t red' h, rbDetach fuel s (some old) = ok (s', topOf c', t.ptr, red') ∧ RbHolds s'.ent s' c' t ∧ (plug c' t).inorder = (plug c (node red l old r)).inorder.erase old ∧ t.Ok h ∧
      (if red' then t.isRed = false ∧ CtxOk true h c' else CtxOk false (h + 1) c') ∧ c'.length ≤ (plug c (node red l old r)).depth ∧
      (∀ j, j ∉ (plug c (node red l old r)).ids → s'.ent j = s.ent j) ∧ ∃ oe, s'.ent old = some oe := by
    intro d u hu hdet hin
    rw [hu] at hz o1 o2
    obtain ⟨s1, s2, q1, q2, g⟩ := unlink_holds hz
    rw [isRed_mk] at o2
    have hun : rbUnlink s (some old) u.ptr = ok (s2, topOf c, u.ptr, red) := by
      simp only [rbUnlink, rb_get eo, ok_bind, q1, q2]
    rw [← hdet, hun]
    have hfr : ∀ j, j ∉ (plug c (node red l old r)).ids → s2.ent j = s.ent j := by
      intro j hj
      rw [← (plug_ids ..).mem_iff, hu] at hj
      refine g.frame j fun h => hj ?_
      rw [List.mem_append, mem_mk] at *
      exact h.imp_right fun h => .inr (.inr h)
    have hold : ∃ oe, s2.ent old = some oe := by
      refine ⟨_, (g.frame old fun h => ?_).trans eo⟩
      have hn := (List.Perm.append_left (cids c) (ids_mk d red leaf old u)).nodup_iff.mp hz.nodup
      simp only [ids, List.nil_append] at hn
      exact (List.nodup_cons.mp (List.perm_middle.nodup_iff.mp hn)).1 h
    cases red with
    | true =>
      obtain ⟨h1, h2, h3, h4⟩ := ok_red.mp o1
      exact ⟨s2, c, u, true, k, rfl, g.self, herase u hin, h4, by simpa using ⟨h2, o2⟩, by omega, hfr, hold⟩
    | false =>
      obtain ⟨k', rfl, h3, h4⟩ := ok_black.mp o1
      exact ⟨s2, c, u, false, k', rfl, g.self, herase u hin, h4, by simpa using o2, by omega, hfr, hold⟩
  by_cases hl : l = leaf
  · subst hl
    exact honly true r rfl (by simp [rbDetach, rb_get eo, ptr]) (by simp [inorder])
  have hlp : l.ptr ≠ none := by cases l with
    | leaf => exact absurd rfl hl
    | node => simp [ptr]
  by_cases hr : r = leaf
  · subst hr
    refine honly false l rfl ?_ (by simp [inorder])
    rw [rbDetach, rb_get eo, ok_bind, if_neg hlp, if_pos (show (⟨l.ptr, leaf.ptr, topOf c, red⟩ : RbEnt).right = none from rfl)]
  have hrp : r.ptr ≠ none := by cases r with
    | leaf => exact absurd rfl hr
    | node => simp [ptr]
  -- two children
  obtain ⟨c2, er, e, u, rfl, hdir, hlen⟩ := exists_edge true hr
  have hz2 : RbHolds m0 s (c2 ++ ⟨false, red, old, l⟩ :: c) (mk true er leaf e u) := by
    refine holds_root.mpr ?_
    rw [plug_append]
    exact hs
  have hedge := rbEdge_spec hz2 hdir (fuel := fuel) (by simp only [depth] at hdep; omega)
  have ee := holds_get hz2
  have hx1 : ∀ {h}, (plug c2 (mk true er leaf e u)).Ok h → True := fun _ => trivial
  obtain ⟨s1, s2, q1, q2, g2⟩ := unlink_holds hz2
  have hnn := hz2.nodup
  have hee : e ∉ cids (c2 ++ ⟨false, red, old, l⟩ :: c) ++ u.ids := by
    have hp := (List.Perm.append_left (cids (c2 ++ ⟨false, red, old, l⟩ :: c)) (ids_mk true er leaf e u)).nodup_iff.mp hnn
    simp only [ids, List.nil_append] at hp
    have := (List.perm_middle.nodup_iff.mp hp)
    exact (List.nodup_cons.mp this).1
  have e2 : s2.ent e = some (.of true none u.ptr (topOf (c2 ++ ⟨false, red, old, l⟩ :: c)) er) := by rw [g2.frame e hee]; exact ee
  have g3 : RbHolds s.ent s2 c (node red l old (plug c2 u)) := by
    have := holds_root.mp g2
    rw [plug_append] at this
    exact holds_root.mpr this
  have hids : ∀ j, j ∈ cids c ++ (node red l old (plug c2 u)).ids ↔ j ∈ cids (c2 ++ ⟨false, red, old, l⟩ :: c) ++ u.ids := by
    intro j
    rw [(plug_ids ..).mem_iff, (plug_ids ..).mem_iff, plug_append]
    rfl
  obtain ⟨s3, s4, s5, s6, oe3, x0, x1, x2, x3, x4, x5, x6, x7, x8, g6⟩ := replace_holds g3 hl (fun h => hee ((hids e).mp h)) e2
  have g7 : RbHolds s2.ent s6 (c2 ++ ⟨false, red, e, l⟩ :: c) u := by
    refine holds_root.mpr ?_
    rw [plug_append]
    exact holds_root (c := ⟨false, red, e, l⟩ :: c).mp (holds_plug.mpr g6)
  have hpar : (if (RbEnt.of true none u.ptr (topOf (c2 ++ ⟨false, red, old, l⟩ :: c)) er).parent = some old then some e else topOf (c2 ++ ⟨false, red, old, l⟩ :: c)) =
      topOf (c2 ++ ⟨false, red, e, l⟩ :: c) := by
    rw [RbEnt.of_parent]
    cases c2 with
    | nil => simp [topOf]
    | cons f c2 =>
      simp only [List.cons_append, topOf, Option.some.injEq]
      rw [if_neg]
      rintro rfl
      rw [cids_append] at hnn
      simp [cids] at hnn
  have hclimb := rbClimb_spec (fuel := fuel) g7.ctx (by simp only [depth, List.length_append, List.length_cons] at hdep ⊢; omega)
  have hdet : rbDetach fuel s (some old) = ok (s6, topOf (c2 ++ ⟨false, red, e, l⟩ :: c), u.ptr, er) := by
    rw [rbDetach, rb_get eo, ok_bind, if_neg hlp, if_neg hrp, rbReplace, rb_get eo, ok_bind]
    rw [hedge, ok_bind, rb_get ee, ok_bind]
    dsimp only
    have er1 : (RbEnt.of true leaf.ptr u.ptr (topOf (c2 ++ ⟨false, red, old, l⟩ :: c)) er).right = u.ptr := rfl
    rw [er1, RbEnt.of_parent, q1, ok_bind, q2, ok_bind, rb_get e2, ok_bind, rb_get x0, ok_bind, x1, ok_bind, x2, ok_bind, rb_get x3, ok_bind, x4, ok_bind, rb_get x5, ok_bind, x6, x7,
      ok_bind, hpar, hclimb, ok_bind, RbEnt.of_red]
  have hin : (plug (c2 ++ ⟨false, red, e, l⟩ :: c) u).inorder = (plug c (node red l old (plug c2 (mk true er leaf e u)))).inorder.erase old := by
    rw [plug_append]
    refine herase _ ?_
    show l.inorder ++ e :: (plug c2 u).inorder = _
    rw [inorder_plug (t := mk true er leaf e u), inorder_plug, before_nil hdir]
    simp [mk, inorder]
  have hfr : ∀ j, j ∉ (plug c (node red l old (plug c2 (mk true er leaf e u)))).ids → s6.ent j = s.ent j := by
    intro j hj
    have hj' : j ∉ cids (c2 ++ ⟨false, red, old, l⟩ :: c) ++ (mk true er leaf e u).ids := by
      rw [(plug_ids ..).mem_iff, plug_append]
      exact hj
    simp only [cids_append, cids, List.mem_append, List.mem_cons, mem_mk, not_or] at hj'
    obtain ⟨⟨a1, a2, a3, a4⟩, a5, a6, a7⟩ := hj'
    rw [g7.frame j (by simp only [cids_append, cids, List.mem_append, List.mem_cons, not_or]; exact ⟨⟨a1, a5, a3, a4⟩, a7⟩),
      g2.frame j (by simp only [cids_append, cids, List.mem_append, List.mem_cons, not_or]; exact ⟨⟨a1, a2, a3, a4⟩, a7⟩)]
  have hlen' : (c2 ++ ⟨false, red, e, l⟩ :: c).length ≤ (plug c (node red l old (plug c2 (mk true er leaf e u)))).depth := by
    simp only [depth, List.length_append, List.length_cons] at hdep ⊢
    omega
  obtain ⟨k', p1, p2⟩ := unplug_ok (c := c2 ++ ⟨false, red, old, l⟩ :: c) (t := mk true er leaf e u) (h := h0) (by rw [plug_append]; exact hok) (by rw [plug_append]; exact hblk)
  rw [isRed_mk] at p2
  have p3 := ctxOk_swap (j := e).mp p2
  cases er with
  | true =>
    obtain ⟨h1, h2, h3, h4⟩ := ok_red.mp p1
    exact ⟨s6, _, u, true, k', hdet, g7.self, hin, h4, by simpa using ⟨h2, p3⟩, hlen', hfr, _, x8⟩
  | false =>
    obtain ⟨k'', rfl, h3, h4⟩ := ok_black.mp p1
    exact ⟨s6, _, u, false, k'', hdet, g7.self, hin, h4, by simpa using p3, hlen', hfr, _, x8⟩

/-- `RB_REMOVE`. -/
theorem rbRemove_spec {m0 s fuel old} {T : RbT} (hs : RbHolds m0 s [] T) (ho : old ∈ T.ids) {h0} (hok : T.Ok h0) (hblk : T.isRed = false) (hf : T.depth + 1 < fuel) :
    ∃ s' T' h, rbRemove fuel s old = ok (s', old) ∧ RbHolds s'.ent s' [] T' ∧ T'.inorder = T.inorder.erase old ∧ T'.Ok h ∧ T'.isRed = false ∧
      (∀ j, j ∉ T.ids → s'.ent j = s.ent j) ∧ ∃ oe, s'.ent old = some oe := by
  obtain ⟨s1, c, t, red, h, q, g, hin, hto, hcol, hlen, hfr, oe, hoe⟩ := rbDetach_spec hs ho hok hblk hf
  have hnd : T.inorder.Nodup := (ids_inorder _).nodup_iff.mp (by simpa [cids] using hs.nodup)
  have hsub : ∀ {T' : RbT}, T'.inorder = T.inorder.erase old → (∀ j, j ∉ T.ids → j ∉ T'.ids) ∧ old ∉ T'.ids := by
    intro T' h
    refine ⟨fun j hj hj' => hj ?_, fun hj => ?_⟩
    · rw [(ids_inorder _).mem_iff, h] at hj'
      exact (ids_inorder _).mem_iff.mpr (List.mem_of_mem_erase hj')
    · rw [(ids_inorder _).mem_iff, h] at hj
      exact (hnd.mem_erase_iff.mp hj).1 rfl
  cases red with
  | true =>
    simp only [if_true] at hcol
    obtain ⟨k, o1, o2⟩ := plug_ok hto (by rw [hcol.1]; exact ctxOk_weaken hcol.2)
    refine ⟨s1, _, k, ?_, holds_root.mp g, hin, o1, o2, hfr, oe, hoe⟩
    simp only [rbRemove, q, ok_bind, Bool.true_eq_false, if_false]
  | false =>
    simp only [Bool.false_eq_true, if_false] at hcol
    obtain ⟨s2, T', k, q2, g2, hin2, o1, o2⟩ := rbRemoveColor_spec fuel g (fun _ => hto) (fun h => black_ok_red hto h) hcol (by split <;> omega)
    have hT' := hin2.trans hin
    refine ⟨s2, T', k, ?_, g2.self, hT', o1, o2, ?_, oe, ?_⟩
    · simp only [rbRemove, q, ok_bind, if_true, q2]
    · intro j hj
      rw [g2.frame j (by simpa [cids] using (hsub hT').1 j hj), hfr j hj]
    · rw [g2.frame old (by simpa [cids] using (hsub hT').2), hoe]

end Wdns
