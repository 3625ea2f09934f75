import Verif.Spec.CaseAlike
import Verif.Props.RecordOrder
import Verif.Props.Downcase
import Mathlib.Data.List.Perm.Basic

/-!
# C131: neither the order of the records nor the case of letters matters once an RRset is lower-cased and sorted
-/

namespace Wdns
open Outcome Wdns.Spec

/-! ## Lower-casing does not look behind the rdata -/

theorem dnNameS_wire_more : ∀ (n : Name) (rest : List UInt8) (k : Nat), (∀ l ∈ n, LabelOK l) → NoZero n →
    dnNameS (wire n ++ rest) ((wire n).length + k) = ok (wire (lowerName n), rest, k) := by
  intro n
  induction n with
  | nil =>
    intro rest k _ _
    simp only [wire, lowerName, List.map_nil, List.cons_append, List.nil_append, List.length_singleton]
    rw [show 1 + k = k + 1 by omega]
    simp [dnNameS]
  | cons l n ih =>
    intro rest k hl h0
    have hlo := hl l (by simp)
    have e : wire (l :: n) ++ rest = (UInt8.ofNat l.length :: l) ++ (wire n ++ rest) := by simp [wire]
    have hsmall : ∀ k < 64, lower (UInt8.ofNat k) = UInt8.ofNat k := by decide +kernel
    have hne : ∀ k < 64, 1 ≤ k → UInt8.ofNat k ≠ 0 := by decide +kernel
    rw [e, show (wire (l :: n)).length + k = (UInt8.ofNat l.length :: l).length + ((wire n).length + k) by simp [wire]; omega]
    rw [dnNameS_bytes, ih rest k (fun l h => hl l (by simp [h])) (fun l h => h0 l (by simp [h]))]
    · have := hlo.2
      simp [wire, lowerName, hsmall l.length (by omega)]
    · simp only [List.mem_cons, not_or]
      exact ⟨fun h => hne l.length (by have := hlo.2; omega) hlo.1 h.symm, h0 l (by simp)⟩

theorem dnS_lowered_more (z : List UInt8) {ts : List Rdf} {w w' : List UInt8} (h : Lowered NoZero ts w w') (hg : ∀ t ∈ ts, DnGood t) :
    dnS ts (w ++ z) w.length = ok (.success, w' ++ z) := by
  induction h with
  | @done ts => cases ts <;> simp [dnS]
  | @name t ts n rest rest' h1 h2 h3 h4 ih =>
    have hne : (wire n ++ rest).length ≠ 0 := by cases n <;> simp [wire]
    simp only [dnS, hne, if_false, h1, if_true]
    rw [List.length_append, List.append_assoc, dnNameS_wire_more n _ _ h2.1 h3]
    simp only [ok_bind]
    rw [ih (fun t ht => hg t (by simp [ht]))]
    simp
  | @field t ts f rest rest' h1 h2 h3 h4 ih =>
    have hne : (f ++ rest).length ≠ 0 := by
      intro h; exact h2 (List.eq_nil_of_length_eq_zero h)
    have hname : ¬ IsName t := by
      intro h; cases t <;> simp [IsName] at h <;> simp [FieldOK] at h1
    simp only [dnS, hne, if_false, hname]
    by_cases hs : dnStop t = true
    · have ht : Terminal t := by cases t <;> simp [dnStop] at hs <;> simp [Terminal]
      have hr := h3 ht
      subst hr
      have := lowered_length h4
      have : rest' = [] := List.eq_nil_of_length_eq_zero (by simpa using this)
      subst this
      simp [hs]
    · have hs' : dnStop t = false := by simpa using hs
      rw [List.append_assoc, dnAdv_field (hg t (by simp)) hname hs' h1]
      simp only [hs', Bool.false_eq_true, if_false, ok_bind]
      rw [if_neg (by simp)]
      rw [List.drop_left, List.take_left, List.length_append, Nat.add_sub_cancel_left, ih (fun t ht => hg t (by simp [ht]))]
      simp

theorem downcaseRdata_lowered {r : CRdata} {ty cls : Nat} {x : List UInt8} (hv : r.Valid) (h : LoweredRdata ty cls r.bytes x) :
    ∃ r', downcaseRdata r ty cls = ok (.success, r') ∧ r'.bytes = x ∧ r'.Valid := by
  obtain ⟨d, ht, h6, hd, ha, hw⟩ := h
  have hall : ∀ ty ∈ canonicalTypes, ty ≠ 38 → ∀ d ∈ recordDescr ty, ∀ t ∈ d.types, DnGood t := by decide +kernel
  have hlen : r.bytes.length = r.len := by have := hv; unfold CRdata.Valid at this; simp [CRdata.bytes, Nat.min_eq_left this]
  have e2 := dnS_lowered_more (r.data.drop r.len) hw (hall ty ht h6 d hd)
  have e3 : r.bytes ++ r.data.drop r.len = r.data := List.take_append_drop _ _
  rw [e3, hlen] at e2
  have e4 : downcaseRdata r ty cls = ok (.success, ⟨r.len, x ++ r.data.drop r.len⟩) := by rw [downcaseRdata_known ht hd ha, e2]; rfl
  have hxl : x.length = r.len := by
    have := (C58_case_only _ _ _ _ _ e4).2.1
    have hv' := hv
    unfold CRdata.Valid at hv'
    simp only [List.length_append, List.length_drop] at this
    omega
  refine ⟨_, e4, ?_, ?_⟩
  · simp only [CRdata.bytes]
    rw [List.take_append_of_le_length (by omega), List.take_of_length_le (by omega)]
  · unfold CRdata.Valid; simp only [List.length_append]; omega

theorem downcaseRdata_untouched {r : CRdata} {ty cls : Nat} (h : ¬ ∃ d, ty ∈ canonicalTypes ∧ recordDescr ty = some d ∧ d.applies cls = true) :
    downcaseRdata r ty cls = ok (.success, r) := by
  unfold downcaseRdata
  cases hd : recordDescr ty with
  | none => rfl
  | some d =>
    simp only
    by_cases ht : ty ∈ downcaseTypes
    · rw [if_pos ht]
      by_cases ha : d.applies cls = true
      · exact absurd ⟨d, (mem_downcaseTypes ty).mp ht, hd, ha⟩ h
      · rw [if_neg ha]
    · rw [if_neg ht]

/-! ## Grouping -/

theorem forall2_left {α β : Type} {R : α → β → Prop} {l : List α} {m : List β} (h : List.Forall₂ R l m) : ∀ a ∈ l, ∃ b ∈ m, R a b := by
  induction h with
  | nil => simp
  | cons hr _ ih =>
    intro a ha
    rcases List.mem_cons.mp ha with rfl | ha
    · exact ⟨_, by simp, hr⟩
    · obtain ⟨b, hb, hab⟩ := ih a ha; exact ⟨b, by simp [hb], hab⟩

theorem forall2_right {α β : Type} {R : α → β → Prop} {l : List α} {m : List β} (h : List.Forall₂ R l m) : ∀ b ∈ m, ∃ a ∈ l, R a b := by
  induction h with
  | nil => simp
  | cons hr _ ih =>
    intro b hb
    rcases List.mem_cons.mp hb with rfl | hb
    · exact ⟨_, by simp, hr⟩
    · obtain ⟨a, ha, hab⟩ := ih b hb; exact ⟨a, by simp [ha], hab⟩

theorem alike_key {v v'} (h : RRAlike v v') : viewKey v' = viewKey v := by
  obtain ⟨-, h2, h3, h4, -⟩ := h
  simp only [viewKey, h2, h3, h4]

theorem alike_rdatas (k : Nat × Nat × List UInt8) {xs ys : List (Nat × Nat × Nat × List UInt8 × Option (List UInt8))} (h : List.Forall₂ RRAlike xs ys) :
    List.Forall₂ (RdataAlike k.1 k.2.1) ((xs.filter fun v => viewKey v = k).filterMap (·.2.2.2.2)) ((ys.filter fun v => viewKey v = k).filterMap (·.2.2.2.2)) := by
  induction h with
  | nil => exact .nil
  | @cons v v' xs ys hr _ ih =>
    have hk := alike_key hr
    simp only [List.filter_cons, hk]
    by_cases he : viewKey v = k
    · simp only [he, decide_true, if_true, List.filterMap_cons]
      obtain ⟨-, -, -, -, h5⟩ := hr
      have e1 : v.2.1 = k.1 := congrArg Prod.fst he
      have e2 : v.2.2.1 = k.2.1 := congrArg (fun x => x.2.1) he
      cases hv : v.2.2.2.2 with
      | none =>
        cases hv' : v'.2.2.2.2 with
        | none => exact ih
        | some w' => rw [hv, hv'] at h5; exact h5.elim
      | some w =>
        cases hv' : v'.2.2.2.2 with
        | none => rw [hv, hv'] at h5; exact h5.elim
        | some w' => rw [hv, hv', e1, e2] at h5; exact .cons h5 ih
    · simp only [he, decide_false, Bool.false_eq_true, if_false]; exact ih

theorem grouped_alike {xs ys : List RR} {a b : RRsetArray} (ha : GroupedAs xs a) (hb : GroupedAs ys b) (hp : Alike a.rrs b.rrs) (s : RRset) (hs : s ∈ a.rrsets) :
    ∃ s' ∈ b.rrsets, s'.rrtype = s.rrtype ∧ s'.rrclass = s.rrclass ∧ s'.name.bytes.map lower = s.name.bytes.map lower ∧ s'.rrttl = s.rrttl ∧
      ∃ q, List.Forall₂ (RdataAlike s.rrtype s.rrclass) (s.rdatas.map CRdata.bytes) q ∧ q.Perm (s'.rdatas.map CRdata.bytes) := by
  obtain ⟨q, hq, hp⟩ := hp
  rw [ha.rrs_eq] at hq
  rw [hb.rrs_eq] at hp
  have there : ∀ r ∈ xs, ∃ r' ∈ ys, r'.key = r.key ∧ r'.rrttl = r.rrttl := by
    intro r hr
    obtain ⟨v, hv, hrv⟩ := forall2_left hq r.view (List.mem_map_of_mem hr)
    obtain ⟨r', hr', rfl⟩ := List.mem_map.mp (hp.subset hv)
    exact ⟨r', hr', alike_key hrv, hrv.1⟩
  have back : ∀ r' ∈ ys, ∃ r ∈ xs, r'.key = r.key ∧ r'.rrttl = r.rrttl := by
    intro r' hr'
    obtain ⟨v, hv, hrv⟩ := forall2_right hq r'.view (hp.symm.subset (List.mem_map_of_mem hr'))
    obtain ⟨r, hr, rfl⟩ := List.mem_map.mp hv
    exact ⟨r, hr, alike_key hrv, hrv.1⟩
  obtain ⟨r, hr, hk, ht⟩ := ha.ttl_mem s hs
  obtain ⟨r', hr', hv, hvt⟩ := there r hr
  have hmem : s.key ∈ b.rrsets.map RRset.key := by
    rw [hb.keys, List.mem_eraseDups, ← hk, ← hv]
    exact List.mem_map_of_mem hr'
  obtain ⟨s', hs', hkey⟩ := List.mem_map.mp hmem
  have hkey' := hkey
  simp only [RRset.key, Prod.mk.injEq] at hkey'
  refine ⟨s', hs', hkey'.1, hkey'.2.1, hkey'.2.2, ?_, ?_⟩
  · have h1 := hb.ttl_le s' hs' r' hr' (by rw [hv, hk, hkey])
    obtain ⟨t, ht1, ht2, ht3⟩ := hb.ttl_mem s' hs'
    obtain ⟨t', hq1, hq2, hq3⟩ := back t ht1
    have h2 := ha.ttl_le s hs t' hq1 (by rw [← hq2, ht2, hkey])
    omega
  · refine ⟨(q.filter fun v => viewKey v = s.key).filterMap (·.2.2.2.2), ?_, ?_⟩
    · rw [ha.rdatas s hs, rdatas_view]
      exact alike_rdatas s.key hq
    · rw [hb.rdatas s' hs', hkey, rdatas_view]
      exact (hp.filter _).filterMap _

/-- **C131.** Two accepted packets, in any memory, and a section other than the question section that has the same records in both up to their order and the case of letters in names:
for every RRset of the one there is an RRset of the other with the same type, class and TTL, and with the same owner name and the same rdatas up to the case of letters. -/
theorem C131_alike (mem₁ mem₂ : List UInt8) (len₁ len₂ : Nat) (m₁ m₂ : Message) (hm₁ : len₁ ≤ mem₁.length) (hm₂ : len₂ ≤ mem₂.length)
    (h₁ : parseMessage mem₁ len₁ = ok m₁) (h₂ : parseMessage mem₂ len₂ = ok m₂) (i j : Nat) (hi : i ≠ 0) (hj : j ≠ 0) (a b : RRsetArray) (ha : m₁.sections[i]? = some a)
    (hb : m₂.sections[j]? = some b) (hp : Alike a.rrs b.rrs) (s : RRset) (hs : s ∈ a.rrsets) :
    ∃ s' ∈ b.rrsets, s'.rrtype = s.rrtype ∧ s'.rrclass = s.rrclass ∧ s'.name.bytes.map lower = s.name.bytes.map lower ∧ s'.rrttl = s.rrttl ∧
      ∃ q, List.Forall₂ (RdataAlike s.rrtype s.rrclass) (s.rdatas.map CRdata.bytes) q ∧ q.Perm (s'.rdatas.map CRdata.bytes) := by
  obtain ⟨_, all₁, -, ⟨-, -, -, -, s1⟩, -⟩ := parseMessage_ok hm₁ h₁
  obtain ⟨_, all₂, -, ⟨-, -, -, -, s2⟩, -⟩ := parseMessage_ok hm₂ h₂
  have g1 := s1 i a ha
  have g2 := s2 j b hb
  unfold SectionIs at g1 g2
  rw [if_neg hi] at g1
  rw [if_neg hj] at g2
  exact grouped_alike g1 g2 hp s hs

/-! ## Storing -/

/-- What lower-casing leaves of rdata. -/
def LowersTo (ty cls : Nat) (w x : List UInt8) : Prop :=
  LoweredRdata ty cls w x ∨ (¬ ∃ d, ty ∈ canonicalTypes ∧ recordDescr ty = some d ∧ d.applies cls = true) ∧ x = w

theorem lowersTo_down {r : CRdata} {ty cls : Nat} {x : List UInt8} (hv : r.Valid) (h : LowersTo ty cls r.bytes x) :
    ∃ r', downcaseRdata r ty cls = ok (.success, r') ∧ r'.bytes = x ∧ r'.Valid := by
  rcases h with h | ⟨h, rfl⟩
  · exact downcaseRdata_lowered hv h
  · exact ⟨r, downcaseRdata_untouched h, rfl, hv⟩

theorem lowersTo_alike {ty cls : Nat} {w w' : List UInt8} (h : RdataAlike ty cls w w') (hx : ∃ x, LowersTo ty cls w x) : ∃ x, LowersTo ty cls w x ∧ LowersTo ty cls w' x := by
  rcases h with rfl | ⟨x, h1, h2⟩
  · obtain ⟨x, hx⟩ := hx; exact ⟨x, hx, hx⟩
  · exact ⟨x, .inl h1, .inl h2⟩

theorem lowersTo_lists {ty cls : Nat} {A B : List (List UInt8)} (h : List.Forall₂ (RdataAlike ty cls) A B) : (∀ w ∈ A, ∃ x, LowersTo ty cls w x) →
    ∃ X, List.Forall₂ (LowersTo ty cls) A X ∧ List.Forall₂ (LowersTo ty cls) B X := by
  induction h with
  | nil => exact fun _ => ⟨[], .nil, .nil⟩
  | cons hr _ ih =>
    intro hx
    obtain ⟨x, h1, h2⟩ := lowersTo_alike hr (hx _ (by simp))
    obtain ⟨X, h3, h4⟩ := ih fun w hw => hx w (by simp [hw])
    exact ⟨x :: X, .cons h1 h3, .cons h2 h4⟩

theorem downcaseRdatas_lowers {ty cls : Nat} : ∀ {rs : List CRdata} {X : List (List UInt8)}, (∀ r ∈ rs, r.Valid) → List.Forall₂ (LowersTo ty cls) (rs.map CRdata.bytes) X →
    ∃ rs', downcaseRdatas ty cls rs = ok (.success, rs') ∧ rs'.map CRdata.bytes = X ∧ ∀ r ∈ rs', r.Valid := by
  intro rs
  induction rs with
  | nil => intro X _ h; cases h; exact ⟨[], rfl, rfl, by simp⟩
  | cons r rs ih =>
    intro X hv h
    simp only [List.map_cons] at h
    cases h with
    | cons hr ht =>
      obtain ⟨r', e1, rfl, v1⟩ := lowersTo_down (hv r (by simp)) hr
      obtain ⟨rs', e2, rfl, v2⟩ := ih (fun r h => hv r (by simp [h])) ht
      refine ⟨r' :: rs', by simp [downcaseRdatas, e1, e2], rfl, fun x hx => ?_⟩
      rcases List.mem_cons.mp hx with rfl | hx
      · exact v1
      · exact v2 x hx

theorem downcaseRrset_lowers {s : RRset} {X : List (List UInt8)} (hv : s.Valid) (h : List.Forall₂ (LowersTo s.rrtype s.rrclass) (s.rdatas.map CRdata.bytes) X) :
    ∃ d, downcaseRrset s = ok (.success, d) ∧ d.view = (s.rrttl, s.rrtype, s.rrclass, s.name.bytes.map lower, X) ∧ d.Valid := by
  obtain ⟨rs', h1, h2, h3⟩ := downcaseRdatas_lowers hv.2 h
  have hb := downcaseBytes_spec s.name.len s.name.data hv.1
  have hn := hv.1
  unfold CName.Valid at hn
  have hl : ((s.name.data.take s.name.len).map lower).length = s.name.len := by simp [Nat.min_eq_left hn]
  refine ⟨{ s with name := { s.name with data := (s.name.data.take s.name.len).map lower ++ s.name.data.drop s.name.len }, rdatas := rs' },
    by simp only [downcaseRrset, downcaseName, hb, ok_bind, h1], ?_, ?_, h3⟩
  · simp only [RRset.view, CName.bytes, h2]
    rw [List.take_append_of_le_length (by omega), List.take_of_length_le (by omega)]
  · unfold CName.Valid
    simp only [List.length_append]
    omega

/-- **C131.** If the names in the rdatas of such an RRset are ones that the library can lower-case (C59: no zero octet in a label, not A6), both RRsets are lower-cased successfully,
and then sorted, whatever algorithm `qsort` uses, and serialized they give the same octets. -/
theorem C131_stored (mem₁ mem₂ : List UInt8) (len₁ len₂ : Nat) (m₁ m₂ : Message) (hm₁ : len₁ ≤ mem₁.length) (hm₂ : len₂ ≤ mem₂.length)
    (h₁ : parseMessage mem₁ len₁ = ok m₁) (h₂ : parseMessage mem₂ len₂ = ok m₂) (i j : Nat) (hi : i ≠ 0) (hj : j ≠ 0) (a b : RRsetArray) (ha : m₁.sections[i]? = some a)
    (hb : m₂.sections[j]? = some b) (hp : Alike a.rrs b.rrs) (s : RRset) (hs : s ∈ a.rrsets)
    (hlow : ∀ d, s.rrtype ∈ canonicalTypes → recordDescr s.rrtype = some d → d.applies s.rrclass = true → ∀ r ∈ s.rdatas, ∃ x, LoweredRdata s.rrtype s.rrclass r.bytes x) (le : Bool) :
    ∃ s' ∈ b.rrsets, ∃ l l', downcaseRrset s = ok (.success, l) ∧ downcaseRrset s' = ok (.success, l') ∧
      ∀ t t', SortRrset l t → SortRrset l' t' → ∃ x, serializeRrset le (serializeSize t) t = ok x ∧ serializeRrset le (serializeSize t') t' = ok x := by
  obtain ⟨s', hs', e1, e2, e3, e4, q, e5, e6⟩ := C131_alike mem₁ mem₂ len₁ len₂ m₁ m₂ hm₁ hm₂ h₁ h₂ i j hi hj a b ha hb hp s hs
  obtain ⟨v1, -⟩ := C78_rrsets_valid mem₁ len₁ m₁ hm₁ h₁ a (List.mem_of_getElem? ha) s hs
  obtain ⟨v2, -⟩ := C78_rrsets_valid mem₂ len₂ m₂ hm₂ h₂ b (List.mem_of_getElem? hb) s' hs'
  have hall : ∀ w ∈ s.rdatas.map CRdata.bytes, ∃ x, LowersTo s.rrtype s.rrclass w x := by
    intro w hw
    obtain ⟨r, hr, rfl⟩ := List.mem_map.mp hw
    by_cases hd : ∃ d, s.rrtype ∈ canonicalTypes ∧ recordDescr s.rrtype = some d ∧ d.applies s.rrclass = true
    · obtain ⟨d, d1, d2, d3⟩ := hd
      obtain ⟨x, hx⟩ := hlow d d1 d2 d3 r hr
      exact ⟨x, .inl hx⟩
    · exact ⟨_, .inr ⟨hd, rfl⟩⟩
  obtain ⟨X, hX, hY⟩ := lowersTo_lists e5 hall
  obtain ⟨Y, hZ, hXY⟩ := List.perm_comp_forall₂ e6.symm hY
  rw [← e1, ← e2] at hZ
  obtain ⟨l, d1, d2, d3⟩ := downcaseRrset_lowers v1 hX
  obtain ⟨l', d1', d2', d3'⟩ := downcaseRrset_lowers v2 hZ
  refine ⟨s', hs', l, l', d1, d1', fun t t' ht ht' => ?_⟩
  simp only [RRset.view, Prod.mk.injEq] at d2 d2'
  have hperm : (l.rdatas.map CRdata.bytes).Perm (l'.rdatas.map CRdata.bytes) := by
    rw [d2.2.2.2.2, d2'.2.2.2.2]; exact hXY.symm
  obtain ⟨p1, _, q1⟩ := C22_sorted l t d3 ht
  obtain ⟨p2, _, q2⟩ := C22_sorted l' t' d3' ht'
  have hc := C22_sort_canonical l l' t t' d3 d3' hperm ht ht'
  have v1' : t.Valid := by rw [q1]; exact ⟨d3.1, fun d hd => d3.2 d (p1.mem_iff.mp hd)⟩
  have v2' : t'.Valid := by rw [q2]; exact ⟨d3'.1, fun d hd => d3'.2 d (p2.mem_iff.mp hd)⟩
  refine ⟨ser le t, serializeRrset_spec v1' (Nat.le_refl _), ?_⟩
  rw [ser_view (le := le) v1' v2' ?_]
  · exact serializeRrset_spec v2' (Nat.le_refl _)
  · rw [RRset.view, RRset.view, hc, q1, q2]
    simp only [d2.1, d2.2.1, d2.2.2.1, d2.2.2.2.1, d2'.1, d2'.2.1, d2'.2.2.1, d2'.2.2.2.1, e1, e2, e3, e4]

/-- The alias of C129 in another spelling: `B` for `b` and `A` for `a`. -/
def orderC' : List UInt8 := [1, 66, 0, 0, 5, 0, 1, 0, 0, 0, 8, 0, 3, 1, 65, 0]

theorem lowered_one (c c' : UInt8) (h : lower c = c') (h0 : c ≠ 0) : LoweredRdata 5 1 [1, c, 0] [1, c', 0] := by
  refine ⟨⟨_, [.name]⟩, by decide, by decide, rfl, rfl, ?_⟩
  have := Lowered.name (P := NoZero) (t := .name) (ts := []) (n := [[c]]) (rest := []) (rest' := []) (by decide) (by
    refine ⟨fun l hl => ?_, ?_⟩
    · obtain rfl := List.mem_singleton.mp hl; exact ⟨by simp, by simp⟩
    · simp [wire]) (by
    intro l hl
    obtain rfl := List.mem_singleton.mp hl
    simpa using Ne.symm h0) .done
  simpa [wire, lowerName, h] using this

set_option synthInstance.maxHeartbeats 400000 in
set_option synthInstance.maxSize 2000 in
/-- Two packets as in these theorems: the order of the records and the spelling of the alias differ. -/
example : ∃ m₁ m₂ a b, parseMessage (orderMsg orderA orderB orderC') 62 = ok m₁ ∧ parseMessage (orderMsg orderC orderB orderA) 62 = ok m₂ ∧ m₁.sections[1]? = some a ∧
    m₂.sections[1]? = some b ∧ Alike a.rrs b.rrs ∧ (∃ x, LoweredRdata 5 1 [1, 65, 0] x) ∧
    a.rrsets.map RRset.view = [(7, 1, 1, [1, 97, 0], [[1, 2, 3, 4], [5, 6, 7, 8]]), (8, 5, 1, [1, 66, 0], [[1, 65, 0]])] ∧
    b.rrsets.map RRset.view = [(8, 5, 1, [1, 98, 0], [[1, 97, 0]]), (7, 1, 1, [1, 97, 0], [[5, 6, 7, 8], [1, 2, 3, 4]])] := by
  obtain ⟨m₁, a, h1, h2, h3, h4⟩ := order_views (mem := orderMsg orderA orderB orderC') (len := 62)
    (x := ([(9, 1, 1, [1, 97, 0], some [1, 2, 3, 4]), (7, 1, 1, [1, 97, 0], some [5, 6, 7, 8]), (8, 5, 1, [1, 66, 0], some [1, 65, 0])],
      [(7, 1, 1, [1, 97, 0], [[1, 2, 3, 4], [5, 6, 7, 8]]), (8, 5, 1, [1, 66, 0], [[1, 65, 0]])])) (by decide +kernel)
  obtain ⟨m₂, b, g1, g2, g3, g4⟩ := order_views (mem := orderMsg orderC orderB orderA) (len := 62)
    (x := ([(8, 5, 1, [1, 98, 0], some [1, 97, 0]), (7, 1, 1, [1, 97, 0], some [5, 6, 7, 8]), (9, 1, 1, [1, 97, 0], some [1, 2, 3, 4])],
      [(8, 5, 1, [1, 98, 0], [[1, 97, 0]]), (7, 1, 1, [1, 97, 0], [[5, 6, 7, 8], [1, 2, 3, 4]])])) (by decide +kernel)
  refine ⟨m₁, m₂, a, b, h1, g1, h2, g2, ⟨[(9, 1, 1, [1, 97, 0], some [1, 2, 3, 4]), (7, 1, 1, [1, 97, 0], some [5, 6, 7, 8]), (8, 5, 1, [1, 98, 0], some [1, 97, 0])], ?_, ?_⟩,
    ⟨_, lowered_one 65 97 (by decide) (by decide)⟩, h4, g4⟩
  · rw [h3]
    refine .cons ⟨rfl, rfl, rfl, rfl, .inl rfl⟩ (.cons ⟨rfl, rfl, rfl, rfl, .inl rfl⟩ (.cons ⟨rfl, rfl, rfl, by decide, .inr ⟨[1, 97, 0], ?_, ?_⟩⟩ .nil))
    · exact lowered_one 65 97 (by decide) (by decide)
    · exact lowered_one 97 97 (by decide) (by decide)
  · rw [g3]; decide

end Wdns
