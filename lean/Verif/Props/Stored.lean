import Verif.Props.Pipeline
import Verif.Spec.RRText

/-!
# C132: an RRset that was stored and fetched is the RRset that was parsed
-/

namespace Wdns
open Outcome Wdns.Spec

theorem parseMessageRr_mod {sec : Nat} {mem : List UInt8} {p eop o sz : Nat} {rr : RR}
    (h : parseMessageRr sec mem p eop o = ok (rr, sz)) : ∀ d, rr.rdata = some d → d.len = d.data.length % 65536 := by
  unfold parseMessageRr at h
  obtain ⟨⟨nm, len⟩, hu, h⟩ := bind_eq_ok.mp h
  simp only at h
  obtain ⟨⟨src, k⟩, _, h⟩ := bind_eq_ok.mp h
  simp only at h
  split at h
  · simp at h
  · obtain ⟨t0, _, h⟩ := bind_eq_ok.mp h
    obtain ⟨t1, _, h⟩ := bind_eq_ok.mp h
    obtain ⟨c0, _, h⟩ := bind_eq_ok.mp h
    obtain ⟨c1, _, h⟩ := bind_eq_ok.mp h
    split at h
    · simp only [ok.injEq, Prod.mk.injEq] at h
      obtain ⟨rfl, rfl⟩ := h
      simp
    · obtain ⟨l0, _, h⟩ := bind_eq_ok.mp h
      obtain ⟨l1, _, h⟩ := bind_eq_ok.mp h
      obtain ⟨l2, _, h⟩ := bind_eq_ok.mp h
      obtain ⟨l3, _, h⟩ := bind_eq_ok.mp h
      obtain ⟨n0, _, h⟩ := bind_eq_ok.mp h
      obtain ⟨n1, _, h⟩ := bind_eq_ok.mp h
      split at h
      · simp at h
      · obtain ⟨r, hr, h⟩ := bind_eq_ok.mp h
        simp only [ok.injEq, Prod.mk.injEq] at h
        obtain ⟨rfl, rfl⟩ := h
        intro d hd
        simp only [Option.some.injEq] at hd
        subst hd
        exact (C39_length_iff _ _ _ _ _ _ _ _ hr).1

/-- The blocks of the RRsets of a parsed message have the lengths that their length fields say, rdata if it has fewer than 65536 octets. -/
theorem parsed_blocks {mem : List UInt8} {len : Nat} {m : Message} (hm : len ≤ mem.length) (h : parseMessage mem len = ok m) {i : Nat} (hi : i ≠ 0) {a : RRsetArray}
    (ha : m.sections[i]? = some a) {s : RRset} (hs : s ∈ a.rrsets) :
    s.name.len = s.name.data.length ∧ ∀ d ∈ s.rdatas, d.len = d.data.length % 65536 := by
  obtain ⟨h12, all, h1, ⟨_, _, _, h4, h5⟩, _⟩ := parseMessage_ok hm h
  have g := h5 i a ha
  unfold SectionIs at g
  rw [if_neg hi] at g
  constructor
  · obtain ⟨r, hr, hn⟩ := Option.map_eq_some_iff.mp (g.owner s hs)
    have hr' := (List.mem_filter.mp (List.mem_of_mem_head? hr)).1
    obtain ⟨o, sz, hp⟩ := (readAll_valid (headerSecs_nodup mem) h1).1 _ ((sectionOf_sub all i).1 r hr')
    obtain ⟨n, -, e⟩ := (parseMessageRr_valid hp).2.1
    rw [← hn, show r.name = _ from e]
  · intro d hd
    rw [g.rdatas s hs] at hd
    obtain ⟨r, hr, hrd⟩ := List.mem_filterMap.mp hd
    obtain ⟨o, sz, hp⟩ := (readAll_valid (headerSecs_nodup mem) h1).1 _ ((sectionOf_sub all i).1 r (List.mem_filter.mp hr).1)
    exact parseMessageRr_mod hp d hrd

/-- **C132.** Every RRset of the answer, authority and additional sections of every parsed message, if its rdatas have fewer than 65536 octets each (C39): serialized and
deserialized, followed by anything, it is the very same object, so that every function gives the same for it. -/
theorem C132_same (mem : List UInt8) (len : Nat) (m : Message) (hm : len ≤ mem.length) (h : parseMessage mem len = ok m) (i : Nat) (hi : i ≠ 0) (a : RRsetArray)
    (ha : m.sections[i]? = some a) (s : RRset) (hs : s ∈ a.rrsets) (hlen : ∀ d ∈ s.rdatas, d.data.length < 65536) (le : Bool) :
    ∃ b, serializeRrset le (serializeSize s) s = ok b ∧ ∀ rest, deserializeRrset le (b ++ rest) (b ++ rest).length = ok s := by
  obtain ⟨v, f⟩ := C78_rrsets_valid mem len m hm h a (List.mem_of_getElem? ha) s hs
  obtain ⟨hn, hd⟩ := parsed_blocks hm h hi ha hs
  have ht : s.trim = s := by
    have e1 : (⟨s.name.len, s.name.bytes⟩ : CName) = s.name := by
      have : s.name.bytes = s.name.data := by simp only [CName.bytes]; exact List.take_of_length_le (by omega)
      rw [this]
    have e2 : (s.rdatas.map fun r => (⟨r.len, r.bytes⟩ : CRdata)) = s.rdatas := by
      rw [List.map_congr_left (g := id), List.map_id]
      intro d hdm
      have h1 := hd d hdm
      have h2 := hlen d hdm
      rw [Nat.mod_eq_of_lt h2] at h1
      have : d.bytes = d.data := by simp only [CRdata.bytes]; exact List.take_of_length_le (by omega)
      rw [this]; rfl
    unfold RRset.trim
    rw [e1, e2]
  refine ⟨_, serializeRrset_spec v (Nat.le_refl _), fun rest => ?_⟩
  rw [deserializeRrset_complete (Nat.le_refl _) v f (List.prefix_append _ _) (by simp), ht]

/-- **C132.** In particular in packets of at most 65305 octets without overlong SvcParams. -/
theorem C132_message (mem : List UInt8) (len : Nat) (m : Message) (hm : len ≤ mem.length) (h : parseMessage mem len = ok m) (hf : m.Fits) (i : Nat) (hi : i ≠ 0) (a : RRsetArray)
    (ha : m.sections[i]? = some a) (s : RRset) (hs : s ∈ a.rrsets) (le : Bool) :
    ∃ b, serializeRrset le (serializeSize s) s = ok b ∧ ∀ rest, deserializeRrset le (b ++ rest) (b ++ rest).length = ok s :=
  C132_same mem len m hm h i hi a ha s hs (hf a (List.mem_of_getElem? ha) s hs) le

/-- Two RRsets of one message, or of two, are stored alike only if they are the same object. -/
theorem C132_injective (mem₁ mem₂ : List UInt8) (len₁ len₂ : Nat) (m₁ m₂ : Message) (hm₁ : len₁ ≤ mem₁.length) (hm₂ : len₂ ≤ mem₂.length)
    (h₁ : parseMessage mem₁ len₁ = ok m₁) (h₂ : parseMessage mem₂ len₂ = ok m₂) (f₁ : m₁.Fits) (f₂ : m₂.Fits) (i j : Nat) (hi : i ≠ 0) (hj : j ≠ 0) (a b : RRsetArray)
    (ha : m₁.sections[i]? = some a) (hb : m₂.sections[j]? = some b) (s t : RRset) (hs : s ∈ a.rrsets) (ht : t ∈ b.rrsets) (le : Bool) (x : List UInt8)
    (e₁ : serializeRrset le (serializeSize s) s = ok x) (e₂ : serializeRrset le (serializeSize t) t = ok x) : s = t := by
  obtain ⟨y, y1, y2⟩ := C132_message mem₁ len₁ m₁ hm₁ h₁ f₁ i hi a ha s hs le
  obtain ⟨z, z1, z2⟩ := C132_message mem₂ len₂ m₂ hm₂ h₂ f₂ j hj b hb t ht le
  rw [e₁] at y1; cases y1
  rw [e₂] at z1; cases z1
  have k1 := y2 []
  have k2 := z2 []
  rw [k1] at k2
  exact ok.inj k2

/-- The RRset of the answer section of `sampleMsg` is one to which the theorems apply. -/
example : sampleParsed.Fits ∧ ∃ a, sampleParsed.sections[1]? = some a ∧ a.rrsets.length = 1 := by
  refine ⟨?_, ?_⟩
  · unfold Message.Fits; decide +kernel
  · decide +kernel

end Wdns
