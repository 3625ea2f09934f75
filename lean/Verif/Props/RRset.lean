import Verif.Lemmas.Insert
import Verif.Lemmas.Serialize
import Verif.Props.NameOps

/-!
# Properties C21 - C28: RRsets
-/

namespace Wdns
open Outcome Spec

/-! ## C21 -/

/-- **C21.** For every RR and RRset (with readable name buffers): the comparison is true exactly when type
and class agree and the owner names have the same octets up to ASCII case. -/
theorem C21_compare (rr : RR) (s : RRset) (h1 : rr.name.Valid) (h2 : s.name.Valid) :
    ∃ b, compareRrRrset rr s = ok b ∧
      (b = true ↔ rr.rrtype = s.rrtype ∧ rr.rrclass = s.rrclass ∧
        rr.name.bytes.map lower = s.name.bytes.map lower) := by
  refine ⟨_, compare_spec h1 h2, ?_⟩
  simp [RR.key, RRset.key]

/-- **C21 (names).** For well-formed owner names, in terms of labels: true exactly when type and class
agree and the label sequences are equal ignoring ASCII case. -/
theorem C21_compare_names (rr : RR) (s : RRset) (m n : Name) (hm : Holds rr.name m) (hn : Holds s.name n) :
    compareRrRrset rr s = ok true ↔
      rr.rrtype = s.rrtype ∧ rr.rrclass = s.rrclass ∧ lowerName m = lowerName n := by
  have hb : ∀ {c : CName} {n : Name}, Holds c n → c.Valid ∧ c.bytes.map lower = wire (lowerName n) := by
    intro c n ⟨hn, hl, hst⟩
    refine ⟨by rw [CName.Valid, hl]; exact hst.length_le, ?_⟩
    rw [CName.bytes, hl, ← List.prefix_iff_eq_take.mp hst, wire_lower n hn.1]
  obtain ⟨v1, b1⟩ := hb hm
  obtain ⟨v2, b2⟩ := hb hn
  obtain ⟨b, e, hiff⟩ := C21_compare rr s v1 v2
  rw [e]
  simp only [ok.injEq]
  rw [hiff, b1, b2]
  constructor
  · rintro ⟨h1, h2, h3⟩
    exact ⟨h1, h2, wire_inj (lowerName_ok hm.1.1) (lowerName_ok hn.1.1) h3⟩
  · rintro ⟨h1, h2, h3⟩
    exact ⟨h1, h2, by rw [h3]⟩

example : compareRrRrset ⟨1, 1, 1, ⟨3, [1, 65, 0]⟩, none⟩ ⟨9, 1, 1, ⟨3, [1, 97, 0]⟩, []⟩ = ok true := by
  decide

/-! ## C22 -/

/-- **C22 (order).** Whatever conforming `qsort` is used, the rdatas are permuted into the order by length,
then by octets; nothing else changes. -/
theorem C22_sorted (s s' : RRset) (hv : s.Valid) (h : SortRrset s s') :
    s'.rdatas.Perm s.rdatas ∧ (s'.rdatas.map CRdata.bytes).Pairwise RdataLe ∧
    s' = { s with rdatas := s'.rdatas } := by
  unfold SortRrset at h
  split at h
  · obtain ⟨out, ⟨hp, hs⟩, rfl⟩ := h
    refine ⟨hp, ?_, rfl⟩
    rw [List.pairwise_map]
    have hvo : ∀ d ∈ out, d.Valid := fun d hd => hv.2 d (hp.mem_iff.mp hd)
    exact hs.imp_of_mem fun {a b} ha hb hab => (rdataCmp_le (hvo a ha) (hvo b hb)).mp hab
  · subst h
    refine ⟨List.Perm.refl _, ?_, rfl⟩
    rename_i hl
    match hr : s'.rdatas with
    | [] => simp
    | [_] => simp
    | a :: b :: t => rw [hr] at hl; simp at hl

/-- **C22 (canonical).** Two RRsets with the same multiset of rdatas sort to the same sequence of rdatas,
whichever algorithms `qsort` uses. -/
theorem C22_sort_canonical (s t s' t' : RRset) (hs : s.Valid) (ht : t.Valid)
    (hp : (s.rdatas.map CRdata.bytes).Perm (t.rdatas.map CRdata.bytes))
    (h1 : SortRrset s s') (h2 : SortRrset t t') :
    s'.rdatas.map CRdata.bytes = t'.rdatas.map CRdata.bytes := by
  obtain ⟨p1, o1, _⟩ := C22_sorted s s' hs h1
  obtain ⟨p2, o2, _⟩ := C22_sorted t t' ht h2
  have p : (s'.rdatas.map CRdata.bytes).Perm (t'.rdatas.map CRdata.bytes) :=
    (p1.map _).trans (hp.trans (p2.map _).symm)
  exact List.Perm.eq_of_pairwise (fun a b _ _ => RdataLe.antisymm) o1 o2 p

/-- A case of `C22_sort_canonical`: the same two rdata in another order. -/
example (s' t' : RRset) (h1 : SortRrset ⟨0, 1, 1, ⟨1, [0]⟩, [⟨2, [1, 2]⟩, ⟨1, [9]⟩]⟩ s') (h2 : SortRrset ⟨0, 1, 1, ⟨1, [0]⟩, [⟨1, [9]⟩, ⟨2, [1, 2]⟩]⟩ t') :
    s'.rdatas.map CRdata.bytes = t'.rdatas.map CRdata.bytes :=
  C22_sort_canonical _ _ _ _ ⟨by unfold CName.Valid; decide, by unfold CRdata.Valid; decide⟩ ⟨by unfold CName.Valid; decide, by unfold CRdata.Valid; decide⟩ (by decide) h1 h2

/-- **C22 (idempotent).** Sorting a sorted RRset changes nothing observable. -/
theorem C22_sort_idempotent (s s' s'' : RRset) (hs : s.Valid) (h1 : SortRrset s s')
    (h2 : SortRrset s' s'') : s''.view = s'.view := by
  obtain ⟨p1, o1, e1⟩ := C22_sorted s s' hs h1
  have hs' : s'.Valid := by
    rw [e1]; exact ⟨hs.1, fun d hd => hs.2 d (p1.mem_iff.mp hd)⟩
  obtain ⟨_, _, e2⟩ := C22_sorted s' s'' hs' h2
  have := C22_sort_canonical s' s s'' s' hs' hs (p1.map _) h2 h1
  simp only [RRset.view, this]
  rw [e2]

/-- **C22 (well-defined).** The comparison function never faults on the rdatas and is a consistent total
order, so a conforming `qsort` has a result: some `s'` is always possible. -/
theorem C22_sort_defined (s : RRset) (hs : s.Valid) :
    (∀ a ∈ s.rdatas, ∀ b ∈ s.rdatas, (rdataCmp a b).Returns) ∧
    (∀ a b c, RdataLe a b → RdataLe b c → RdataLe a c) ∧ (∀ a b, RdataLe a b ∨ RdataLe b a) ∧
    (∀ a b, RdataLe a b → RdataLe b a → a = b) ∧
    ∃ s', SortRrset s s' := by
  refine ⟨?_, fun _ _ _ => RdataLe.trans, RdataLe.total, fun _ _ => RdataLe.antisymm, ?_⟩
  · intro a ha b hb
    unfold rdataCmp
    split
    · simp
    · split
      · simp
      · rename_i h1 h2
        have e : a.len = b.len := by omega
        rw [rdN_rdata (hs.2 a ha), ok_bind, e, rdN_rdata (hs.2 b hb)]
        simp
  · unfold SortRrset
    split
    · classical
      let le : CRdata → CRdata → Bool := fun a b => decide (RdataLe a.bytes b.bytes)
      have hp := List.mergeSort_perm s.rdatas le
      refine ⟨_, s.rdatas.mergeSort le, ⟨hp, ?_⟩, rfl⟩
      have := List.pairwise_mergeSort (le := le)
        (by intro a b c; simp only [le, decide_eq_true_eq]; exact RdataLe.trans)
        (by intro a b; simp only [le, Bool.or_eq_true, decide_eq_true_eq]; exact RdataLe.total _ _) s.rdatas
      refine this.imp_of_mem fun {a b} ha hb hab => ?_
      exact (rdataCmp_le (hs.2 a (hp.mem_iff.mp ha)) (hs.2 b (hp.mem_iff.mp hb))).mpr
        (by simpa [le] using hab)
    · exact ⟨s, rfl⟩

example : SortRrset ⟨0, 1, 1, ⟨1, [0]⟩, [⟨2, [1, 2]⟩, ⟨1, [9]⟩, ⟨2, [1, 1]⟩]⟩
    ⟨0, 1, 1, ⟨1, [0]⟩, [⟨1, [9]⟩, ⟨2, [1, 1]⟩, ⟨2, [1, 2]⟩]⟩ := by
  refine ⟨[⟨1, [9]⟩, ⟨2, [1, 1]⟩, ⟨2, [1, 2]⟩], ⟨by decide, ?_⟩, rfl⟩
  simp [rdataCmp, rdN, memcmp]

/-! ## C23, C24 -/

/-- **C23.** For every RRset whose fields fit their C types and on either byte order: serializing into a
buffer of the reported size succeeds, and deserializing the result followed by any bytes succeeds and
gives an RRset equal in every field. -/
theorem C23_serialize_round_trip (le : Bool) (s : RRset) (hv : s.Valid) (hf : s.Fits) :
    ∃ b, serializeRrset le (serializeSize s) s = ok b ∧
      ∀ rest, ∃ s', deserializeRrset le (b ++ rest) (b ++ rest).length = ok s' ∧ s'.view = s.view ∧
        s'.name.len = s.name.len ∧ s'.rdatas.map CRdata.len = s.rdatas.map CRdata.len := by
  refine ⟨_, serializeRrset_spec hv (Nat.le_refl _), fun rest => ⟨s.trim, ?_, ?_, ?_⟩⟩
  · exact deserializeRrset_complete (Nat.le_refl _) hv hf (List.prefix_append _ _) (by simp)
  · simp only [RRset.view, RRset.trim, CName.bytes, List.map_map, Prod.mk.injEq, true_and]
    refine ⟨by rw [List.take_take, Nat.min_self], List.map_congr_left fun r _ => ?_⟩
    simp only [Function.comp, CRdata.bytes]
    rw [List.take_take, Nat.min_self]
  · refine ⟨rfl, ?_⟩
    simp [RRset.trim]

/-- A case of the hypotheses of `C23_serialize_round_trip` and `C24_serialized_size`. -/
example : (⟨60, 1, 1, ⟨3, [1, 97, 0]⟩, [⟨4, [1, 2, 3, 4]⟩, ⟨0, []⟩]⟩ : RRset).Valid ∧ (⟨60, 1, 1, ⟨3, [1, 97, 0]⟩, [⟨4, [1, 2, 3, 4]⟩, ⟨0, []⟩]⟩ : RRset).Fits :=
  ⟨⟨by unfold CName.Valid; decide, by unfold CRdata.Valid; decide⟩, by unfold RRset.Fits; decide⟩

/-- **C24.** The reported size is exactly the number of bytes written: a buffer of that size is filled
completely, never overrun, and any smaller buffer would be overrun. -/
theorem C24_serialized_size (le : Bool) (s : RRset) (hv : s.Valid) :
    (∃ b, serializeRrset le (serializeSize s) s = ok b ∧ b.length = serializeSize s) ∧
    (∀ cap, cap < serializeSize s → serializeRrset le cap s = ub) := by
  constructor
  · exact ⟨_, serializeRrset_spec hv (Nat.le_refl _), (serializeSize_spec hv le).symm⟩
  · intro cap hc
    have hmono : ∀ (rs : List CRdata) (out : List UInt8), (∀ r ∈ rs, r.Valid) → out.length ≤ cap →
        cap < out.length + (rs.flatMap (serRdata le)).length → serializeRdatas le cap rs out = ub := by
      intro rs
      induction rs with
      | nil => intro out _ h1 h2; simp at h2; omega
      | cons r rs ih =>
        intro out hv h1 h2
        simp only [List.flatMap_cons, List.length_append, serRdata, enc16_length,
          CRdata.bytes_length (hv r (by simp))] at h2
        simp only [serializeRdatas, wrN, enc16_length, rdN_rdata (hv r (by simp))]
        by_cases g1 : out.length + 2 ≤ cap
        · simp only [g1, if_true, ok_bind, List.length_append, enc16_length,
            CRdata.bytes_length (hv r (by simp))]
          by_cases g2 : out.length + 2 + r.len ≤ cap
          · simp only [g2, if_true, ok_bind]
            exact ih _ (fun r h => hv r (by simp [h]))
              (by simp [enc16_length, CRdata.bytes_length (hv r (by simp))]; omega)
              (by simp only [List.length_append, enc16_length, CRdata.bytes_length (hv r (by simp))]; omega)
          · simp only [g2, if_false, ub_bind]
        · simp only [g1, if_false, ub_bind]
    rw [serializeSize_spec hv le] at hc
    simp only [ser, serHead, List.length_append, enc16_length, enc32_length, List.length_singleton,
      CName.bytes_length hv.1] at hc
    have hb := CName.bytes_length hv.1
    simp only [serializeRrset, wrN, rdN_name hv.1, List.length_nil, List.length_singleton, hb, enc16_length,
      enc32_length]
    by_cases g1 : 0 + 1 ≤ cap
    rotate_left
    · simp only [g1, if_false, ub_bind]
    simp only [g1, if_true, ok_bind, List.length_append, List.length_nil, List.length_singleton, hb,
      enc16_length, enc32_length]
    by_cases g2 : 0 + 1 + s.name.len ≤ cap
    rotate_left
    · simp only [g2, if_false, ub_bind]
    simp only [g2, if_true, ok_bind, List.length_append, List.length_nil, List.length_singleton, hb,
      enc16_length, enc32_length]
    by_cases g3 : 0 + 1 + s.name.len + 2 ≤ cap
    rotate_left
    · simp only [g3, if_false, ub_bind]
    simp only [g3, if_true, ok_bind, List.length_append, List.length_nil, List.length_singleton, hb,
      enc16_length, enc32_length]
    by_cases g4 : 0 + 1 + s.name.len + 2 + 2 ≤ cap
    rotate_left
    · simp only [g4, if_false, ub_bind]
    simp only [g4, if_true, ok_bind, List.length_append, List.length_nil, List.length_singleton, hb,
      enc16_length, enc32_length]
    by_cases g5 : 0 + 1 + s.name.len + 2 + 2 + 4 ≤ cap
    rotate_left
    · simp only [g5, if_false, ub_bind]
    simp only [g5, if_true, ok_bind, List.length_append, List.length_nil, List.length_singleton, hb,
      enc16_length, enc32_length]
    by_cases g6 : 0 + 1 + s.name.len + 2 + 2 + 4 + 2 ≤ cap
    rotate_left
    · simp only [g6, if_false, ub_bind]
    simp only [g6, if_true, ok_bind]
    exact hmono _ _ hv.2 (by simp [enc16_length, enc32_length, hb]; omega)
      (by simp only [List.length_append, List.length_nil, List.length_singleton, enc16_length, enc32_length, hb]
          omega)

/-! ## C25 -/

/-- **C25.** For every byte string `buf` (an object of exactly `sz` bytes): deserialization either
returns wdns_res_overflow or succeeds, without reading outside; on success re-serializing gives back
exactly the consumed bytes, and every strict prefix of those is rejected with wdns_res_overflow. -/
theorem C25_deserialize (le : Bool) (buf : List UInt8) :
    deserializeRrset le buf buf.length = err .overflow ∨
    ∃ s k, deserializeRrset le buf buf.length = ok s ∧ s.Valid ∧ s.Fits ∧ k = serializeSize s ∧
      k ≤ buf.length ∧ serializeRrset le k s = ok (buf.take k) ∧
      ∀ j, j < k → deserializeRrset le (buf.take j) (buf.take j).length = err .overflow := by
  have exact_valid : ∀ {s : RRset}, s.Exact → s.Valid := fun {s} h =>
    ⟨Nat.le_of_eq h.1.symm, fun d hd => Nat.le_of_eq (h.2 d hd).symm⟩
  rcases deserializeRrset_sound (le := le) (Nat.le_refl buf.length) with e | ⟨s, e, hx, hf, hl, hp⟩
  · exact .inl e
  · right
    have hv := exact_valid hx
    have hk := serializeSize_spec hv le
    refine ⟨s, _, e, hv, hf, rfl, by omega, ?_, ?_⟩
    · rw [serializeRrset_spec hv (Nat.le_refl _), hk, ← List.prefix_iff_eq_take.mp hp]
    · intro j hj
      rcases deserializeRrset_sound (le := le) (Nat.le_refl (buf.take j).length) with e' | ⟨s', e', hx', hf', hl', hp'⟩
      · exact e'
      · exfalso
        have hv' := exact_valid hx'
        have h1 := deserializeRrset_complete (le := le) (Nat.le_refl buf.length) hv' hf'
          (hp'.trans (List.take_prefix _ _)) (by simp at hl'; omega)
        rw [e] at h1
        simp only [ok.injEq] at h1
        have hst : serializeSize s = serializeSize s' := by
          rw [h1]; simp [serializeSize, RRset.trim, List.foldl_map]
        have := serializeSize_spec hv' le
        simp at hl'
        omega

example : serializeRrset true 23 ⟨60, 1, 1, ⟨3, [1, 97, 0]⟩, [⟨4, [1, 2, 3, 4]⟩, ⟨0, []⟩]⟩ =
    ok [3, 1, 97, 0, 1, 0, 1, 0, 60, 0, 0, 0, 2, 0, 4, 0, 1, 2, 3, 4, 0, 0] := by decide

/-! ## C26, C27, C28 -/

/-- **C26.** Inserting any sequence of RRs (at most 65535, the most a section can have) into an empty
section array outside the question section: the RR list holds all RRs in order; every RRset holds exactly
the rdatas of the RRs with its type, class and owner name (ignoring case), in order, and is not empty; it has
the owner name of the first of them; every RR belongs to an RRset; no two RRsets agree in type, class and
owner name. -/
theorem C26_grouping (sec : Nat) (hs : sec ≠ 0) (rrs : List RR) (hv : ∀ r ∈ rrs, r.Valid)
    (hl : rrs.length ≤ 65535) :
    ∃ a, insertAll sec ⟨[], []⟩ rrs = ok a ∧ a.rrs.map RR.view = rrs.map RR.view ∧
      (∀ s ∈ a.rrsets, s.rdatas = (rrs.filter fun r => r.key = s.key).filterMap RR.rdata ∧ s.rdatas ≠ [] ∧
        ((rrs.filter fun r => r.key = s.key).head?).map RR.name = some s.name) ∧
      (∀ r ∈ rrs, ∃ s ∈ a.rrsets, s.key = r.key) ∧
      a.rrsets.Pairwise (fun s t => s.key ≠ t.key) := by
  obtain ⟨a, e, g⟩ := insertAll_grouped hs rrs [] ⟨[], []⟩ grouped_nil hv (by simp; omega)
  rw [List.nil_append] at g
  exact ⟨a, e, g.views, fun s h => ⟨g.rdatas s h, g.nonempty s h, g.owner s h⟩, g.cover, g.distinct⟩

/-- **C27.** The TTL of every RRset is the minimum of the TTLs of the RRs grouped into it. -/
theorem C27_min_ttl (sec : Nat) (hs : sec ≠ 0) (rrs : List RR) (hv : ∀ r ∈ rrs, r.Valid)
    (hl : rrs.length ≤ 65535) :
    ∃ a, insertAll sec ⟨[], []⟩ rrs = ok a ∧
      ∀ s ∈ a.rrsets, (∀ r ∈ rrs, r.key = s.key → s.rrttl ≤ r.rrttl) ∧
        ∃ r ∈ rrs, r.key = s.key ∧ s.rrttl = r.rrttl := by
  obtain ⟨a, e, g⟩ := insertAll_grouped hs rrs [] ⟨[], []⟩ grouped_nil hv (by simp; omega)
  rw [List.nil_append] at g
  exact ⟨a, e, fun s h => ⟨g.ttl_le s h, g.ttl_mem s h⟩⟩

/-- **C28.** Questions are never merged. -/
theorem C28_questions (rrs : List RR) (hv : ∀ r ∈ rrs, r.name.Valid) (hl : rrs.length ≤ 65535) :
    ∃ a, insertAll 0 ⟨[], []⟩ rrs = ok a ∧
      a.rrsets.map RRset.view = rrs.map (fun r => (r.rrttl, r.rrtype, r.rrclass, r.name.bytes, [])) ∧
      a.rrs.map RR.view = rrs.map (fun r => (r.rrttl, r.rrtype, r.rrclass, r.name.bytes, none)) := by
  refine ⟨_, insertAll_question rrs ⟨[], []⟩ hv (by simp; omega) (by simp; omega), ?_, ?_⟩
  · simp [RRset.view, Function.comp_def]
  · simp [RR.view, Function.comp_def, CName.bytes, List.take_take]

example : insertAll 1 ⟨[], []⟩
    [⟨60, 1, 1, ⟨3, [1, 97, 0]⟩, some ⟨1, [7]⟩⟩, ⟨5, 2, 1, ⟨3, [1, 97, 0]⟩, some ⟨1, [8]⟩⟩,
     ⟨30, 1, 1, ⟨3, [1, 65, 0]⟩, some ⟨1, [9]⟩⟩] =
    ok ⟨[⟨60, 1, 1, ⟨3, [1, 97, 0]⟩, some ⟨1, [7]⟩⟩, ⟨5, 2, 1, ⟨3, [1, 97, 0]⟩, some ⟨1, [8]⟩⟩,
        ⟨30, 1, 1, ⟨3, [1, 65, 0]⟩, some ⟨1, [9]⟩⟩],
      [⟨30, 1, 1, ⟨3, [1, 97, 0]⟩, [⟨1, [7]⟩, ⟨1, [9]⟩]⟩, ⟨5, 2, 1, ⟨3, [1, 97, 0]⟩, [⟨1, [8]⟩]⟩]⟩ := by
  decide

end Wdns
