import Verif.Props.Message
import Verif.Props.RRset

/-!
# C78, C79: what parsing gives to the other functions of the library

C78: every RRset of a parsed message can be sorted, serialized and deserialized, and the bytes depend on nothing but the
RRset as a set.  C79: packets that carry the same records parse to the same message object, however names are compressed.
-/

namespace Wdns
open Outcome Spec

/-! ## C78 -/

theorem parseMessageRr_rdlen {sec : Nat} {mem : List UInt8} {p eop o sz : Nat} {rr : RR}
    (h : parseMessageRr sec mem p eop o = ok (rr, sz)) : ∀ d, rr.rdata = some d → d.len < 2 ^ 16 := by
  unfold parseMessageRr at h
  obtain ⟨⟨nm, len⟩, hu, h⟩ := bind_eq_ok.mp h
  simp only at h
  obtain ⟨⟨src, k⟩, _, h⟩ := bind_eq_ok.mp h
  simp only at h
  split at h
  · simp at h
  · obtain ⟨t0, _, h⟩ := bind_eq_ok.mp h
    obtain ⟨t1, _, h⟩ := bind_eq_ok.mp h
    obtain ⟨c0, _, h⟩ := bind_eq_ok.mp h
    obtain ⟨c1, _, h⟩ := bind_eq_ok.mp h
    split at h
    · simp only [ok.injEq, Prod.mk.injEq] at h
      obtain ⟨rfl, rfl⟩ := h
      simp
    · obtain ⟨l0, _, h⟩ := bind_eq_ok.mp h
      obtain ⟨l1, _, h⟩ := bind_eq_ok.mp h
      obtain ⟨l2, _, h⟩ := bind_eq_ok.mp h
      obtain ⟨l3, _, h⟩ := bind_eq_ok.mp h
      obtain ⟨n0, _, h⟩ := bind_eq_ok.mp h
      obtain ⟨n1, _, h⟩ := bind_eq_ok.mp h
      split at h
      · simp at h
      · obtain ⟨r, hr, h⟩ := bind_eq_ok.mp h
        simp only [ok.injEq, Prod.mk.injEq] at h
        obtain ⟨rfl, rfl⟩ := h
        intro d hd
        simp only [Option.some.injEq] at hd
        subst hd
        exact parseRdata_len hr

/-- **C78.** Every RRset of every parsed message has readable blocks, and fields within the range of their C types. -/
theorem C78_rrsets_valid (mem : List UInt8) (len : Nat) (m : Message) (hm : len ≤ mem.length) (h : parseMessage mem len = ok m)
    (a : RRsetArray) (ha : a ∈ m.sections) (s : RRset) (hs : s ∈ a.rrsets) : s.Valid ∧ s.Fits := by
  obtain ⟨h12, all, h1, ⟨_, _, _, h4, h5⟩, hins⟩ := parseMessage_sections hm h
  obtain ⟨i, hi⟩ := List.mem_iff_getElem?.mp ha
  have hsec := h5 i a hi
  have hi4 : i < 4 := by have := (List.getElem?_eq_some_iff.mp hi).1; omega
  have hv : ∀ r ∈ sectionOf all i, ∃ o sz, parseMessageRr i mem 0 len o = ok (r, sz) := by
    intro r hr
    exact (readAll_valid (headerSecs_nodup mem) h1).1 _ ((sectionOf_sub all i).1 r hr)
  have hcount : (sectionOf all i).length ≤ 65535 := by
    have h6 := (readAll_valid (headerSecs_nodup mem) h1).2 _ (headerSecs_mem hi4)
    have h7 := (sectionOf_sub all i).2
    have h8 : u16At mem (4 + 2 * i) ≤ 65535 := by
      have := be16_lt (mem.getD (4 + 2 * i) 0) (mem.getD (4 + 2 * i + 1) 0)
      unfold u16At
      omega
    simp only at h6
    omega
  have wl : ∀ r ∈ sectionOf all i, r.name.Valid ∧ r.name.len < 2 ^ 8 ∧ r.rrttl < 2 ^ 32 ∧ r.rrtype < 2 ^ 16 ∧ r.rrclass < 2 ^ 16 := by
    intro r hr
    obtain ⟨o, sz, hp⟩ := hv r hr
    obtain ⟨v1, ⟨n, hn, e⟩, -, v2, v3, v4⟩ := parseMessageRr_valid hp
    refine ⟨v1.1, ?_, v2, v3, v4⟩
    rw [e]
    have := hn.2
    simp only
    omega
  by_cases h0 : i = 0
  · subst h0
    have hq := hins 0 a hi
    rw [show RRsetArray.empty = ⟨[], []⟩ from rfl,
      insertAll_question (sectionOf all 0) ⟨[], []⟩ (fun r hr => (wl r hr).1) (by simp; omega) (by simp; omega), ok.injEq] at hq
    subst hq
    simp only [List.nil_append, List.mem_map] at hs
    obtain ⟨r, hr, rfl⟩ := hs
    obtain ⟨w1, w2, w3, w4, w5⟩ := wl r hr
    exact ⟨⟨w1, by simp⟩, w3, w4, w5, w2, by simp, by simp⟩
  · rw [SectionIs, if_neg h0] at hsec
    have ho := hsec.owner s hs
    obtain ⟨r, hr1, hr2⟩ := Option.map_eq_some_iff.mp ho
    have hr3 := (List.mem_filter.mp (List.mem_of_mem_head? hr1)).1
    have hk : r.key = s.key := by simpa using (List.mem_filter.mp (List.mem_of_mem_head? hr1)).2
    obtain ⟨w1, w2, w3, w4, w5⟩ := wl r hr3
    obtain ⟨r', g1, g2, g3⟩ := hsec.ttl_mem s hs
    have e1 : r.rrtype = s.rrtype := congrArg Prod.fst hk
    have e2 : r.rrclass = s.rrclass := congrArg (fun x => x.2.1) hk
    have hrd := hsec.rdatas s hs
    have hd : ∀ d ∈ s.rdatas, d.Valid ∧ d.len < 2 ^ 16 := by
      intro d hd
      rw [hrd] at hd
      obtain ⟨q, q1, q2⟩ := List.mem_filterMap.mp hd
      obtain ⟨o, sz, hp⟩ := hv q (List.mem_filter.mp q1).1
      obtain ⟨d', q3, q4⟩ := (parseMessageRr_valid hp).1.2 h0
      rw [q2, Option.some.injEq] at q3
      subst q3
      exact ⟨q4, parseMessageRr_rdlen hp d q2⟩
    refine ⟨⟨by rw [← hr2]; exact w1, fun d h => (hd d h).1⟩, by rw [g3]; exact (wl r' g1).2.2.1, by omega, by omega,
      by rw [← hr2]; exact w2, ?_, fun d h => (hd d h).2⟩
    rw [hrd]
    have k1 := List.length_filterMap_le RR.rdata ((sectionOf all i).filter fun r => r.key = s.key)
    have k2 := List.length_filter_le (fun r => decide (r.key = s.key)) (sectionOf all i)
    omega

/-- **C78.** Every RRset of every parsed message, on either byte order, is serialized into a buffer of the reported size; the
bytes, whatever follows them, are deserialized to an RRset equal in every field. -/
theorem C78_serialize (mem : List UInt8) (len : Nat) (m : Message) (hm : len ≤ mem.length) (h : parseMessage mem len = ok m)
    (a : RRsetArray) (ha : a ∈ m.sections) (s : RRset) (hs : s ∈ a.rrsets) (le : Bool) :
    ∃ b, serializeRrset le (serializeSize s) s = ok b ∧ b.length = serializeSize s ∧
      ∀ rest, ∃ s', deserializeRrset le (b ++ rest) (b ++ rest).length = ok s' ∧ s'.view = s.view := by
  obtain ⟨hv, hf⟩ := C78_rrsets_valid mem len m hm h a ha s hs
  obtain ⟨b, h1, h2⟩ := C23_serialize_round_trip le s hv hf
  obtain ⟨⟨b', h3, h4⟩, -⟩ := C24_serialized_size le s hv
  rw [h1, ok.injEq] at h3
  subst h3
  exact ⟨b, h1, h4, fun rest => by obtain ⟨s', e1, e2, -, -⟩ := h2 rest; exact ⟨s', e1, e2⟩⟩

theorem flatMap_ser {le : Bool} {rs : List CRdata} (h : ∀ r ∈ rs, r.Valid) :
    rs.flatMap (serRdata le) = (rs.map CRdata.bytes).flatMap fun b => enc16 le b.length ++ b := by
  induction rs with
  | nil => rfl
  | cons r rs ih =>
    rw [List.flatMap_cons, List.map_cons, List.flatMap_cons, ih fun r hr => h r (by simp [hr])]
    congr 1
    have : r.bytes.length = r.len := by
      have := h r (by simp)
      simp only [CRdata.Valid] at this
      simp [CRdata.bytes]; omega
    rw [serRdata, this]

/-- The serialized form depends on what can be observed of an RRset only. -/
theorem ser_view {le : Bool} {s t : RRset} (hs : s.Valid) (ht : t.Valid) (h : s.view = t.view) : ser le s = ser le t := by
  simp only [RRset.view, Prod.mk.injEq] at h
  obtain ⟨h1, h2, h3, h4, h5⟩ := h
  have hn : ∀ {s : RRset}, s.Valid → s.name.bytes.length = s.name.len := by
    intro s hs
    have := hs.1
    simp only [CName.Valid] at this
    simp [CName.bytes]; omega
  have hl : s.rdatas.length = t.rdatas.length := by have := congrArg List.length h5; simpa using this
  have hnl : s.name.len = t.name.len := by rw [← hn hs, ← hn ht, h4]
  unfold ser serHead
  rw [h1, h2, h3, h4, hl, hnl, flatMap_ser hs.2, flatMap_ser ht.2, h5]

/-- **C78.** Two RRsets of parsed messages (the same message or not) with the same TTL, type, class and owner name and the same rdatas in
any order: after sorting, whatever algorithms `qsort` uses, they are serialized to the same bytes. -/
theorem C78_canonical (mem₁ mem₂ : List UInt8) (len₁ len₂ : Nat) (m₁ m₂ : Message) (hm₁ : len₁ ≤ mem₁.length) (hm₂ : len₂ ≤ mem₂.length)
    (h₁ : parseMessage mem₁ len₁ = ok m₁) (h₂ : parseMessage mem₂ len₂ = ok m₂) (a₁ a₂ : RRsetArray) (ha₁ : a₁ ∈ m₁.sections)
    (ha₂ : a₂ ∈ m₂.sections) (s t s' t' : RRset) (hs : s ∈ a₁.rrsets) (ht : t ∈ a₂.rrsets) (h3 : SortRrset s s') (h4 : SortRrset t t')
    (e1 : s.rrttl = t.rrttl) (e2 : s.rrtype = t.rrtype) (e3 : s.rrclass = t.rrclass) (e4 : s.name.bytes = t.name.bytes)
    (e5 : (s.rdatas.map CRdata.bytes).Perm (t.rdatas.map CRdata.bytes)) (le : Bool) :
    ∃ b, serializeRrset le (serializeSize s') s' = ok b ∧ serializeRrset le (serializeSize t') t' = ok b := by
  obtain ⟨v1, f1⟩ := C78_rrsets_valid mem₁ len₁ m₁ hm₁ h₁ a₁ ha₁ s hs
  obtain ⟨v2, f2⟩ := C78_rrsets_valid mem₂ len₂ m₂ hm₂ h₂ a₂ ha₂ t ht
  obtain ⟨p1, _, q1⟩ := C22_sorted s s' v1 h3
  obtain ⟨p2, _, q2⟩ := C22_sorted t t' v2 h4
  have hc := C22_sort_canonical s t s' t' v1 v2 e5 h3 h4
  have v1' : s'.Valid := by rw [q1]; exact ⟨v1.1, fun d hd => v1.2 d (p1.mem_iff.mp hd)⟩
  have v2' : t'.Valid := by rw [q2]; exact ⟨v2.1, fun d hd => v2.2 d (p2.mem_iff.mp hd)⟩
  refine ⟨ser le s', serializeRrset_spec v1' (Nat.le_refl _), ?_⟩
  rw [ser_view (le := le) v1' v2' ?_]
  · exact serializeRrset_spec v2' (Nat.le_refl _)
  · rw [RRset.view, RRset.view, hc, q1, q2]
    simp [e1, e2, e3, e4]

/-- The RRset of the answer section of `sampleMsg`, which these theorems apply to, and its serialized form. -/
example : ∃ a ∈ sampleParsed.sections, ∃ s ∈ a.rrsets, s.rdatas.map CRdata.bytes = [[1, 2, 3, 4]] ∧
    serializeRrset true (serializeSize s) s = ok [3, 1, 97, 0, 1, 0, 1, 0, 60, 0, 0, 0, 1, 0, 4, 0, 1, 2, 3, 4] := by decide +kernel

/-! ## C79 -/

theorem parse_of_same_records {mem₁ mem₂ : List UInt8} {len₁ len₂ : Nat} {all : List (Nat × RR)} (hm₁ : len₁ ≤ mem₁.length) (hm₂ : len₂ ≤ mem₂.length)
    (h12₁ : 12 ≤ len₁) (h12₂ : 12 ≤ len₂) (r1 : readAll mem₁ len₁ (headerSecs mem₁) 12 = ok all) (r2 : readAll mem₂ len₂ (headerSecs mem₂) 12 = ok all)
    (hh : mem₁.take 4 = mem₂.take 4) : ∃ m, parseMessage mem₁ len₁ = ok m ∧ parseMessage mem₂ len₂ = ok m := by
  obtain ⟨m₁, p1, -, c1⟩ := parseMessage_of_readAll hm₁ h12₁ r1
  obtain ⟨m₂, p2, -, c2⟩ := parseMessage_of_readAll hm₂ h12₂ r2
  obtain ⟨-, a1, x1, ⟨i1, f1, e1, l1, -⟩, s1⟩ := parseMessage_sections hm₁ p1
  obtain ⟨-, a2, x2, ⟨i2, f2, e2, l2, -⟩, s2⟩ := parseMessage_sections hm₂ p2
  rw [r1, ok.injEq] at x1
  rw [r2, ok.injEq] at x2
  subst x1
  subst x2
  have hu : ∀ o, o + 1 < 4 → u16At mem₁ o = u16At mem₂ o := by
    intro o ho
    have := congrArg (fun l => u16At l o) hh
    rwa [u16At_take (by omega), u16At_take (by omega)] at this
  have hsec : m₁.sections = m₂.sections := by
    apply List.ext_getElem?
    intro i
    by_cases hi : i < 4
    · obtain ⟨a, ha⟩ : ∃ a, m₁.sections[i]? = some a := ⟨_, List.getElem?_eq_getElem (by omega)⟩
      obtain ⟨b, hb⟩ : ∃ b, m₂.sections[i]? = some b := ⟨_, List.getElem?_eq_getElem (by omega)⟩
      have g1 := s1 i a ha
      rw [s2 i b hb, ok.injEq] at g1
      rw [ha, hb, g1]
    · rw [List.getElem?_eq_none (by omega), List.getElem?_eq_none (by omega)]
  refine ⟨m₁, p1, ?_⟩
  rw [p2]
  congr 1
  have hrc : m₁.edns = m₂.edns ∧ m₁.rcode = m₂.rcode := by
    cases hf : all.find? isOpt with
    | none =>
      rw [hf] at e1 e2
      simp only at e1 e2
      exact ⟨by rw [e1.1, e2.1], by rw [e1.2, e2.2, hu 2 (by omega)]⟩
    | some r =>
      rw [hf] at e1 e2
      simp only at e1 e2
      exact ⟨by rw [e1, e2], by rw [c1 r.1 r.2 hf, c2 r.1 r.2 hf, hu 2 (by omega)]⟩
  obtain ⟨id₁, fl₁, rc₁, ed₁, se₁⟩ := m₁
  obtain ⟨id₂, fl₂, rc₂, ed₂, se₂⟩ := m₂
  simp only at i1 i2 f1 f2 hsec hrc
  simp only [Message.mk.injEq]
  exact ⟨by rw [i1, i2, hu 0 (by omega)], by rw [f1, f2, hu 2 (by omega)], hrc.2.symm, hrc.1.symm, hsec.symm⟩

/-- **C79.** Two packets, each followed by anything in memory, that have the same identifier and flags and carry the same records, parse to the
same message object: it does not depend on how names are compressed, nor on the number of records the header announces beyond those
that are there. -/
theorem C79_compression_transparent (mem₁ mem₂ : List UInt8) (len₁ len₂ : Nat) (all : List (Nat × RR))
    (hm₁ : len₁ ≤ mem₁.length) (hm₂ : len₂ ≤ mem₂.length) (h64₁ : len₁ < 2 ^ 64) (h64₂ : len₂ < 2 ^ 64) (h12₁ : 12 ≤ len₁) (h12₂ : 12 ≤ len₂)
    (h₁ : MsgRecs (mem₁.take len₁) all) (h₂ : MsgRecs (mem₂.take len₂) all) (hh : mem₁.take 4 = mem₂.take 4) :
    ∃ m, parseMessage mem₁ len₁ = ok m ∧ parseMessage mem₂ len₂ = ok m :=
  parse_of_same_records hm₁ hm₂ h12₁ h12₂ (readAll_of_msgRecs hm₁ h64₁ h12₁ h₁) (readAll_of_msgRecs hm₂ h64₂ h12₂ h₂) hh

/-- `sampleMsg` without compression, and with a header that announces an authority record that is not there. -/
def sampleMsg' : List UInt8 :=
  [0x12, 0x34, 0x81, 0x80, 0, 1, 0, 1, 0, 0, 0, 2,
   1, 97, 0, 0, 1, 0, 1,
   1, 97, 0, 0, 1, 0, 1, 0, 0, 0, 60, 0, 4, 1, 2, 3, 4,
   0, 0, 41, 0x10, 0, 0, 0, 0x80, 0, 0, 0]

/-- The hypotheses of C79 on the two packets … -/
theorem sample_same : ∃ all, MsgRecs sampleMsg all ∧ MsgRecs sampleMsg' all ∧ all.length = 3 := by
  have h1 : readAll sampleMsg 46 (headerSecs sampleMsg) 12 = ok [
    (0, ⟨0, 1, 1, ⟨3, [1, 97, 0]⟩, none⟩), (1, ⟨60, 1, 1, ⟨3, [1, 97, 0]⟩, some ⟨4, [1, 2, 3, 4]⟩⟩),
    (3, ⟨0x8000, 41, 4096, ⟨1, [0]⟩, some ⟨0, []⟩⟩)] := by decide +kernel
  have h2 : readAll sampleMsg' 47 (headerSecs sampleMsg') 12 = ok [
    (0, ⟨0, 1, 1, ⟨3, [1, 97, 0]⟩, none⟩), (1, ⟨60, 1, 1, ⟨3, [1, 97, 0]⟩, some ⟨4, [1, 2, 3, 4]⟩⟩),
    (3, ⟨0x8000, 41, 4096, ⟨1, [0]⟩, some ⟨0, []⟩⟩)] := by decide +kernel
  have hs : SvcNoLong sampleMsg' := svcNoLong_of_types (by decide +kernel)
  exact ⟨_, msgRecs_of_readAll (by decide) sample_svc (by decide) h1, msgRecs_of_readAll (by decide) hs (by decide) h2, rfl⟩

/-- … and its conclusion. -/
example : parseMessage sampleMsg 46 = parseMessage (sampleMsg' ++ [9]) 47 := by
  obtain ⟨all, h1, h2, -⟩ := sample_same
  obtain ⟨m, e1, e2⟩ := C79_compression_transparent sampleMsg (sampleMsg' ++ [9]) 46 47 all (by decide) (by decide) (by decide) (by decide)
    (by decide) (by decide) h1 ((show (sampleMsg' ++ [9]).take 47 = sampleMsg' by decide) ▸ h2) (by decide)
  rw [e1, e2]

end Wdns
