import Verif.Lemmas.RRset

/-!
# Lemmas about RRset grouping
-/

namespace Wdns
open Outcome Spec

/-- The RRset `s` after the RR `rr` with rdata `d` has been added. -/
def addTo (s : RRset) (rr : RR) (d : CRdata) : RRset :=
  { s with rdatas := s.rdatas ++ [d], rrttl := if rr.rrttl < s.rrttl then rr.rrttl else s.rrttl }

theorem insertFind_spec {rr : RR} {d : CRdata} (hr : rr.name.Valid) (hd : rr.rdata = some d) :
    ∀ (l : List RRset), (∀ s ∈ l, s.name.Valid) →
    (insertFind rr l = ok none ∧ ∀ s ∈ l, s.key ≠ rr.key) ∨
    ∃ pre s post, l = pre ++ s :: post ∧ s.key = rr.key ∧ (∀ s' ∈ pre, s'.key ≠ rr.key) ∧
      ((s.rdatas.length + 1 < 65536 ∧ insertFind rr l = ok (some (pre ++ addTo s rr d :: post))) ∨
       (65536 ≤ s.rdatas.length + 1 ∧ insertFind rr l = abort)) := by
  intro l
  induction l with
  | nil => intro _; left; simp [insertFind]
  | cons s l ih =>
    intro hv
    rw [insertFind, compare_spec hr (hv s (by simp)), ok_bind]
    by_cases h : rr.key = s.key
    · right
      refine ⟨[], s, l, rfl, h.symm, by simp, ?_⟩
      simp only [h, decide_true, if_true, hd]
      by_cases hl : s.rdatas.length + 1 ≥ 65536
      · right; exact ⟨hl, by simp [hl]⟩
      · left; exact ⟨by omega, by simp [hl, addTo]⟩
    · simp only [h, decide_false, Bool.false_eq_true, if_false]
      rcases ih (fun s hs => hv s (by simp [hs])) with ⟨e, h'⟩ | ⟨pre, s', post, e, h1, h2, h3⟩
      · left
        rw [e]
        refine ⟨rfl, ?_⟩
        intro x hx
        rcases List.mem_cons.mp hx with rfl | hx
        · exact fun e => h e.symm
        · exact h' x hx
      · right
        refine ⟨s :: pre, s', post, by simp [e], h1, ?_, ?_⟩
        · intro x hx
          rcases List.mem_cons.mp hx with rfl | hx
          · exact fun e => h e.symm
          · exact h2 x hx
        · rcases h3 with ⟨h3, e'⟩ | ⟨h3, e'⟩
          · left; refine ⟨h3, ?_⟩; rw [e']; rfl
          · right; refine ⟨h3, ?_⟩; rw [e']; rfl

theorem copyRR_spec {rr : RR} {d : CRdata} (hr : rr.name.Valid) (hd : rr.rdata = some d) (hv : d.Valid)
    {sec : Nat} (hs : sec ≠ 0) :
    copyRR rr sec = ok ⟨rr.rrttl, rr.rrtype, rr.rrclass, ⟨rr.name.len, rr.name.bytes⟩,
      some ⟨d.len, d.bytes⟩⟩ := by
  simp only [copyRR, rdN_name hr, hd, hs, ne_eq, not_false_eq_true, if_true, rdN_rdata hv, ok_bind]

/-- The state after the RRs `rrs` have been grouped. -/
structure Grouped (rrs : List RR) (a : RRsetArray) : Prop where
  views : a.rrs.map RR.view = rrs.map RR.view
  nlen : a.rrsets.length ≤ rrs.length
  names : ∀ s ∈ a.rrsets, s.name.Valid
  rdatas : ∀ s ∈ a.rrsets, s.rdatas = (rrs.filter fun r => r.key = s.key).filterMap RR.rdata
  nonempty : ∀ s ∈ a.rrsets, s.rdatas ≠ []
  owner : ∀ s ∈ a.rrsets, ((rrs.filter fun r => r.key = s.key).head?).map RR.name = some s.name
  cover : ∀ r ∈ rrs, ∃ s ∈ a.rrsets, s.key = r.key
  distinct : a.rrsets.Pairwise fun s t => s.key ≠ t.key
  ttl_le : ∀ s ∈ a.rrsets, ∀ r ∈ rrs, r.key = s.key → s.rrttl ≤ r.rrttl
  ttl_mem : ∀ s ∈ a.rrsets, ∃ r ∈ rrs, r.key = s.key ∧ s.rrttl = r.rrttl
  order : a.rrsets.map RRset.key = (rrs.map RR.key).eraseDups

theorem eraseDups_snoc {α} [BEq α] [LawfulBEq α] (l : List α) (x : α) :
    (l ++ [x]).eraseDups = if x ∈ l then l.eraseDups else l.eraseDups ++ [x] := by
  rw [List.eraseDups_append]
  by_cases h : x ∈ l
  · simp [List.removeAll, h]
  · simp [List.removeAll, h, List.eraseDups_cons]

theorem filterMap_length_le {α β} (f : α → Option β) (l : List α) : (l.filterMap f).length ≤ l.length :=
  List.length_filterMap_le f l

@[simp] theorem addTo_key (s : RRset) (rr : RR) (d : CRdata) : (addTo s rr d).key = s.key := rfl
@[simp] theorem addTo_name (s : RRset) (rr : RR) (d : CRdata) : (addTo s rr d).name = s.name := rfl

theorem Grouped.insert {rrs : List RR} {a : RRsetArray} {rr : RR} {sec : Nat} (g : Grouped rrs a)
    (hv : rr.Valid) (hs : sec ≠ 0) (hl : rrs.length + 1 < 65536) :
    ∃ a', insertRr a rr sec = ok a' ∧ Grouped (rrs ++ [rr]) a' := by
  obtain ⟨hn, d, hd, hdv⟩ := hv
  have hlen : a.rrs.length = rrs.length := by
    have := congrArg List.length g.views; simpa using this
  have hview : (RR.mk rr.rrttl rr.rrtype rr.rrclass ⟨rr.name.len, rr.name.bytes⟩
      (some ⟨d.len, d.bytes⟩)).view = rr.view := by
    simp [RR.view, CName.bytes, CRdata.bytes, hd, List.take_take]
  unfold insertRr
  rw [if_neg (by omega), copyRR_spec hn hd hdv hs, ok_bind]
  simp only [hs, if_false]
  have filt : ∀ s : RRset, ((rrs ++ [rr]).filter fun r => decide (r.key = s.key)) =
      (rrs.filter fun r => decide (r.key = s.key)) ++ if rr.key = s.key then [rr] else [] := by
    intro s
    rw [List.filter_append]
    congr 1
    by_cases h : rr.key = s.key <;> simp [h]
  rcases insertFind_spec hn hd a.rrsets.reverse (by simpa using g.names) with
    ⟨e, hno⟩ | ⟨pre, s, post, e, hk, hpre, h3⟩
  · -- new RRset
    rw [e, ok_bind]
    simp only []
    have hnl := g.nlen
    rw [if_neg (by omega)]
    refine ⟨_, rfl, ?_⟩
    simp only [List.mem_reverse] at hno
    have hkey : (RRset.mk rr.rrttl rr.rrtype rr.rrclass rr.name rr.rdata.toList).key = rr.key := rfl
    have hnone : ∀ r ∈ rrs, r.key ≠ rr.key := by
      intro r hr e
      obtain ⟨s, hs, h⟩ := g.cover r hr
      exact hno s hs (h.trans e)
    have hfilt0 : (rrs.filter fun r => decide (r.key = rr.key)) = [] := by
      rw [List.filter_eq_nil_iff]; intro r hr; simpa using hnone r hr
    simp only [hs, ne_eq, not_false_eq_true, if_true]
    constructor
    · simp only [List.map_append, List.map_cons, List.map_nil, g.views, hview]
    · simp only [List.length_append, List.length_singleton]; omega
    · intro s hm
      rcases List.mem_append.mp hm with hm | hm
      · exact g.names s hm
      · rw [List.mem_singleton] at hm; subst hm; exact hn
    · intro s hm
      rw [filt]
      rcases List.mem_append.mp hm with hm | hm
      · rw [if_neg (fun e => hno s hm e.symm), List.append_nil]; exact g.rdatas s hm
      · rw [List.mem_singleton] at hm; subst hm
        rw [hkey, if_pos rfl, hfilt0]; simp [hd]
    · intro s hm
      rcases List.mem_append.mp hm with hm | hm
      · exact g.nonempty s hm
      · rw [List.mem_singleton] at hm; subst hm; simp [hd]
    · intro s hm
      rw [filt]
      rcases List.mem_append.mp hm with hm | hm
      · rw [if_neg (fun e => hno s hm e.symm), List.append_nil]; exact g.owner s hm
      · rw [List.mem_singleton] at hm; subst hm
        rw [hkey, if_pos rfl, hfilt0]; rfl
    · intro r hm
      rcases List.mem_append.mp hm with hm | hm
      · obtain ⟨s, hs, h⟩ := g.cover r hm
        exact ⟨s, List.mem_append_left _ hs, h⟩
      · rw [List.mem_singleton] at hm; subst hm
        exact ⟨_, List.mem_append_right _ (List.mem_singleton.mpr rfl), hkey⟩
    · rw [List.pairwise_append]
      refine ⟨g.distinct, by simp, ?_⟩
      intro s hm t ht
      rw [List.mem_singleton] at ht; subst ht
      exact hno s hm
    · intro s hm r hr hk
      rcases List.mem_append.mp hm with hm' | hm
      · rcases List.mem_append.mp hr with hr | hr
        · exact g.ttl_le s hm' r hr hk
        · rw [List.mem_singleton] at hr; subst hr; exact absurd hk.symm (hno s hm')
      · rw [List.mem_singleton] at hm; subst hm
        rw [hkey] at hk
        rcases List.mem_append.mp hr with hr | hr
        · exact absurd hk (hnone r hr)
        · rw [List.mem_singleton] at hr; subst hr; exact Nat.le_refl _
    · intro s hm
      rcases List.mem_append.mp hm with hm | hm
      · obtain ⟨r, hr, h⟩ := g.ttl_mem s hm
        exact ⟨r, List.mem_append_left _ hr, h⟩
      · rw [List.mem_singleton] at hm; subst hm
        exact ⟨rr, by simp, rfl, rfl⟩
    · rw [List.map_append, List.map_append, List.map_singleton, List.map_singleton, eraseDups_snoc, hkey,
        if_neg (by
          intro h
          obtain ⟨r, hr, e⟩ := List.mem_map.mp h
          exact hnone r hr e), g.order]
  · -- existing RRset
    have earr : a.rrsets = post.reverse ++ s :: pre.reverse := by
      have := congrArg List.reverse e; simpa using this
    have hsm : s ∈ a.rrsets := by rw [earr]; simp
    have hsl : s.rdatas.length ≤ rrs.length := by
      rw [g.rdatas s hsm]
      exact Nat.le_trans (List.length_filterMap_le _ _) (List.length_filter_le _ _)
    rcases h3 with ⟨_, e'⟩ | ⟨h3, _⟩
    · rw [e', ok_bind]
      refine ⟨_, rfl, ?_⟩
      have er : (pre ++ addTo s rr d :: post).reverse = post.reverse ++ addTo s rr d :: pre.reverse := by simp
      rw [er]
      have hdist := g.distinct
      rw [earr, List.pairwise_append, List.pairwise_cons] at hdist
      -- every RRset other than s has a different key
      have hother : ∀ t, t ∈ post.reverse ∨ t ∈ pre.reverse → t ∈ a.rrsets ∧ rr.key ≠ t.key := by
        intro t ht
        rcases ht with ht | ht
        · refine ⟨by rw [earr]; simp at ht ⊢; exact .inl ht, ?_⟩
          rw [← hk]; exact fun e => hdist.2.2 t ht s (by simp) e.symm
        · refine ⟨by rw [earr]; simp at ht ⊢; exact .inr (.inr ht), ?_⟩
          rw [← hk]; exact hdist.2.1.1 t ht
      have hcase : ∀ t ∈ post.reverse ++ addTo s rr d :: pre.reverse,
          t = addTo s rr d ∨ (t ∈ a.rrsets ∧ rr.key ≠ t.key) := by
        intro t ht
        rcases List.mem_append.mp ht with ht | ht
        · exact .inr (hother t (.inl ht))
        · rcases List.mem_cons.mp ht with rfl | ht
          · exact .inl rfl
          · exact .inr (hother t (.inr ht))
      constructor
      · simp only [List.map_append, List.map_cons, List.map_nil, g.views, hview]
      · have := g.nlen
        rw [earr] at this
        simp only [List.length_append, List.length_cons, List.length_singleton] at this ⊢; omega
      · intro t ht
        rcases hcase t ht with rfl | ⟨hm, _⟩
        · exact g.names s hsm
        · exact g.names t hm
      · intro t ht
        rw [filt]
        rcases hcase t ht with rfl | ⟨hm, hne⟩
        · rw [addTo_key, if_pos hk.symm]
          simp only [addTo, List.filterMap_append, List.filterMap_cons, hd, List.filterMap_nil]
          rw [g.rdatas s hsm]
        · rw [if_neg hne, List.append_nil]; exact g.rdatas t hm
      · intro t ht
        rcases hcase t ht with rfl | ⟨hm, hne⟩
        · simp [addTo]
        · exact g.nonempty t hm
      · intro t ht
        rw [filt]
        rcases hcase t ht with rfl | ⟨hm, hne⟩
        · have := g.owner s hsm
          rw [addTo_key, addTo_name, List.head?_append]
          revert this
          cases (rrs.filter fun r => decide (r.key = s.key)).head? <;> simp
        · rw [if_neg hne, List.append_nil]; exact g.owner t hm
      · intro r hr
        have hmap : ∀ t ∈ a.rrsets, ∃ t' ∈ post.reverse ++ addTo s rr d :: pre.reverse, t'.key = t.key := by
          intro t ht
          rw [earr] at ht
          rcases List.mem_append.mp ht with ht | ht
          · exact ⟨t, List.mem_append_left _ ht, rfl⟩
          · rcases List.mem_cons.mp ht with rfl | ht
            · exact ⟨addTo t rr d, by simp, rfl⟩
            · exact ⟨t, List.mem_append_right _ (List.mem_cons_of_mem _ ht), rfl⟩
        rcases List.mem_append.mp hr with hr | hr
        · obtain ⟨t, ht, h⟩ := g.cover r hr
          obtain ⟨t', h1, h2⟩ := hmap t ht
          exact ⟨t', h1, h2.trans h⟩
        · rw [List.mem_singleton] at hr; subst hr
          exact ⟨addTo s r d, by simp, hk⟩
      · rw [List.pairwise_append, List.pairwise_cons]
        refine ⟨hdist.1, ⟨fun t ht => hdist.2.1.1 t ht, hdist.2.1.2⟩, ?_⟩
        intro t ht u hu
        rcases List.mem_cons.mp hu with rfl | hu
        · rw [addTo_key]; exact hdist.2.2 t ht s (by simp)
        · exact hdist.2.2 t ht u (by simp [hu])
      · intro t ht r hr hkr
        rcases hcase t ht with rfl | ⟨hm, hne⟩
        · rw [addTo_key] at hkr
          have hb : (addTo s rr d).rrttl ≤ s.rrttl ∧ (addTo s rr d).rrttl ≤ rr.rrttl := by
            simp only [addTo]; split <;> omega
          rcases List.mem_append.mp hr with hr | hr
          · have := g.ttl_le s hsm r hr hkr; omega
          · rw [List.mem_singleton] at hr; subst hr; exact hb.2
        · rcases List.mem_append.mp hr with hr | hr
          · exact g.ttl_le t hm r hr hkr
          · rw [List.mem_singleton] at hr; subst hr; exact absurd hkr hne
      · intro t ht
        rcases hcase t ht with rfl | ⟨hm, hne⟩
        · by_cases hlt : rr.rrttl < s.rrttl
          · exact ⟨rr, by simp, hk.symm, by simp [addTo, hlt]⟩
          · obtain ⟨r, hr, h⟩ := g.ttl_mem s hsm
            exact ⟨r, List.mem_append_left _ hr, h.1, by simp only [addTo, if_neg hlt]; exact h.2⟩
        · obtain ⟨r, hr, h⟩ := g.ttl_mem t hm
          exact ⟨r, List.mem_append_left _ hr, h⟩
      · obtain ⟨r, hr, h⟩ := g.ttl_mem s hsm
        rw [List.map_append, List.map_append, List.map_singleton, eraseDups_snoc,
          if_pos (List.mem_map.mpr ⟨r, hr, h.1.trans hk⟩), ← g.order, earr]
        simp [addTo_key]
    · omega

theorem insertAll_grouped {sec : Nat} (hs : sec ≠ 0) : ∀ (rrs pre : List RR) (a : RRsetArray),
    Grouped pre a → (∀ r ∈ rrs, r.Valid) → pre.length + rrs.length < 65536 →
    ∃ a', insertAll sec a rrs = ok a' ∧ Grouped (pre ++ rrs) a' := by
  intro rrs
  induction rrs with
  | nil => intro pre a g _ _; exact ⟨a, rfl, by simpa using g⟩
  | cons rr rrs ih =>
    intro pre a g hv hl
    simp only [List.length_cons] at hl
    obtain ⟨a', e, g'⟩ := g.insert (hv rr (by simp)) hs (by omega)
    obtain ⟨a'', e', g''⟩ := ih (pre ++ [rr]) a' g' (fun r h => hv r (by simp [h])) (by simp; omega)
    exact ⟨a'', by simp [insertAll, e, e'], by simpa using g''⟩

theorem grouped_nil : Grouped [] ⟨[], []⟩ := by
  constructor <;> simp

/-! ### Questions -/

theorem insertRr_question {a : RRsetArray} {rr : RR} (hn : rr.name.Valid) (h1 : a.rrs.length + 1 < 65536)
    (h2 : a.rrsets.length + 1 < 65536) :
    insertRr a rr 0 = ok ⟨a.rrs ++ [⟨rr.rrttl, rr.rrtype, rr.rrclass, ⟨rr.name.len, rr.name.bytes⟩, none⟩],
      a.rrsets ++ [⟨rr.rrttl, rr.rrtype, rr.rrclass, rr.name, []⟩]⟩ := by
  unfold insertRr
  rw [if_neg (by omega)]
  simp only [copyRR, rdN_name hn, ok_bind, ne_eq, not_true_eq_false, if_false, if_true]
  rw [if_neg (by omega)]

theorem insertAll_question : ∀ (rrs : List RR) (a : RRsetArray), (∀ r ∈ rrs, r.name.Valid) →
    a.rrs.length + rrs.length < 65536 → a.rrsets.length + rrs.length < 65536 →
    insertAll 0 a rrs = ok
      ⟨a.rrs ++ rrs.map (fun r => ⟨r.rrttl, r.rrtype, r.rrclass, ⟨r.name.len, r.name.bytes⟩, none⟩),
       a.rrsets ++ rrs.map (fun r => ⟨r.rrttl, r.rrtype, r.rrclass, r.name, []⟩)⟩ := by
  intro rrs
  induction rrs with
  | nil => intro a _ _ _; simp [insertAll]
  | cons r rrs ih =>
    intro a hv h1 h2
    simp only [List.length_cons] at h1 h2
    rw [insertAll, insertRr_question (hv r (by simp)) (by omega) (by omega), ok_bind,
      ih _ (fun r h => hv r (by simp [h])) (by simp; omega) (by simp; omega)]
    simp

end Wdns
