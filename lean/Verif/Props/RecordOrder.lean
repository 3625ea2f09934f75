import Verif.Props.Pipeline

/-!
# C129: the RRsets of a section do not depend on the order of its records
-/

namespace Wdns
open Outcome Wdns.Spec

/-- Type, class and owner name ignoring case, of what can be observed of a record. -/
def viewKey (v : Nat × Nat × Nat × List UInt8 × Option (List UInt8)) : Nat × Nat × List UInt8 := (v.2.1, v.2.2.1, v.2.2.2.1.map lower)

theorem rdatas_view (k : Nat × Nat × List UInt8) : ∀ (rrs : List RR), ((rrs.filter fun r => r.key = k).filterMap RR.rdata).map CRdata.bytes =
    ((rrs.map RR.view).filter fun v => viewKey v = k).filterMap (·.2.2.2.2) := by
  intro rrs
  induction rrs with
  | nil => rfl
  | cons r rrs ih =>
    have e : viewKey r.view = r.key := rfl
    simp only [List.map_cons, List.filter_cons, e]
    by_cases h : r.key = k
    · simp only [h, decide_true, if_true]
      cases hr : r.rdata with
      | none => simp only [List.filterMap_cons, hr, RR.view, Option.map_none, ih]
      | some d => simp only [List.filterMap_cons, hr, RR.view, Option.map_some, List.map_cons, ih]
    · simp only [h, decide_false, Bool.false_eq_true, if_false, ih]

theorem grouped_perm {xs ys : List RR} {a b : RRsetArray} (ha : GroupedAs xs a) (hb : GroupedAs ys b) (hp : (a.rrs.map RR.view).Perm (b.rrs.map RR.view)) (s : RRset)
    (hs : s ∈ a.rrsets) : ∃ s' ∈ b.rrsets, s'.rrtype = s.rrtype ∧ s'.rrclass = s.rrclass ∧ s'.name.bytes.map lower = s.name.bytes.map lower ∧ s'.rrttl = s.rrttl ∧
      (s'.rdatas.map CRdata.bytes).Perm (s.rdatas.map CRdata.bytes) := by
  rw [ha.rrs_eq, hb.rrs_eq] at hp
  have look : ∀ {us vs : List RR}, (us.map RR.view).Perm (vs.map RR.view) → ∀ r ∈ us, ∃ r' ∈ vs, r'.view = r.view := by
    intro us vs h r hr
    exact List.mem_map.mp (h.subset (List.mem_map_of_mem hr))
  have vk : ∀ {r r' : RR}, r'.view = r.view → r'.key = r.key ∧ r'.rrttl = r.rrttl := fun {r r'} h => ⟨congrArg viewKey h, congrArg Prod.fst h⟩
  obtain ⟨r, hr, hk, ht⟩ := ha.ttl_mem s hs
  obtain ⟨r', hr', hv⟩ := look hp r hr
  have hmem : s.key ∈ b.rrsets.map RRset.key := by
    rw [hb.keys, List.mem_eraseDups, ← hk, ← (vk hv).1]
    exact List.mem_map_of_mem hr'
  obtain ⟨s', hs', hkey⟩ := List.mem_map.mp hmem
  have hkey' := hkey
  simp only [RRset.key, Prod.mk.injEq] at hkey'
  refine ⟨s', hs', hkey'.1, hkey'.2.1, hkey'.2.2, ?_, ?_⟩
  · have h1 := hb.ttl_le s' hs' r' hr' (by rw [(vk hv).1, hk, hkey])
    rw [(vk hv).2] at h1
    obtain ⟨q, hq, hqk, hqt⟩ := hb.ttl_mem s' hs'
    obtain ⟨q', hq', hqv⟩ := look hp.symm q hq
    have h2 := ha.ttl_le s hs q' hq' (by rw [(vk hqv).1, hqk, hkey])
    rw [(vk hqv).2] at h2
    omega
  · rw [ha.rdatas s hs, hb.rdatas s' hs', hkey, rdatas_view, rdatas_view]
    exact (hp.symm.filter _).filterMap _

/-- **C129.** Two accepted packets, in any memory, and a section other than the question section that has the same records in both, in any order: for every RRset of the
one there is an RRset of the other with the same type, class and TTL, the same owner name up to the case of letters, and the same rdatas up to their order. -/
theorem C129_order (mem₁ mem₂ : List UInt8) (len₁ len₂ : Nat) (m₁ m₂ : Message) (hm₁ : len₁ ≤ mem₁.length) (hm₂ : len₂ ≤ mem₂.length)
    (h₁ : parseMessage mem₁ len₁ = ok m₁) (h₂ : parseMessage mem₂ len₂ = ok m₂) (i j : Nat) (hi : i ≠ 0) (hj : j ≠ 0) (a b : RRsetArray) (ha : m₁.sections[i]? = some a)
    (hb : m₂.sections[j]? = some b) (hp : (a.rrs.map RR.view).Perm (b.rrs.map RR.view)) (s : RRset) (hs : s ∈ a.rrsets) :
    ∃ s' ∈ b.rrsets, s'.rrtype = s.rrtype ∧ s'.rrclass = s.rrclass ∧ s'.name.bytes.map lower = s.name.bytes.map lower ∧ s'.rrttl = s.rrttl ∧
      (s'.rdatas.map CRdata.bytes).Perm (s.rdatas.map CRdata.bytes) := by
  obtain ⟨_, all₁, -, ⟨-, -, -, -, s1⟩, -⟩ := parseMessage_ok hm₁ h₁
  obtain ⟨_, all₂, -, ⟨-, -, -, -, s2⟩, -⟩ := parseMessage_ok hm₂ h₂
  have g1 := s1 i a ha
  have g2 := s2 j b hb
  unfold SectionIs at g1 g2
  rw [if_neg hi] at g1
  rw [if_neg hj] at g2
  exact grouped_perm g1 g2 hp s hs

theorem nodup_length_le {α} [DecidableEq α] : ∀ {x y : List α}, x.Nodup → (∀ z ∈ x, z ∈ y) → x.length ≤ y.length := by
  intro x
  induction x with
  | nil => intro y _ _; simp
  | cons c x ih =>
    intro y hn h
    rw [List.nodup_cons] at hn
    have hc := h c (by simp)
    have := ih (y := y.erase c) hn.2 fun z hz => (List.mem_erase_of_ne (fun (e : z = c) => hn.1 (e ▸ hz))).mpr (h z (by simp [hz]))
    rw [List.length_erase_of_mem hc] at this
    have := List.length_pos_of_mem hc
    simp only [List.length_cons]
    omega

/-- **C129.** There are as many RRsets in both. -/
theorem C129_count (mem₁ mem₂ : List UInt8) (len₁ len₂ : Nat) (m₁ m₂ : Message) (hm₁ : len₁ ≤ mem₁.length) (hm₂ : len₂ ≤ mem₂.length)
    (h₁ : parseMessage mem₁ len₁ = ok m₁) (h₂ : parseMessage mem₂ len₂ = ok m₂) (i j : Nat) (hi : i ≠ 0) (hj : j ≠ 0) (a b : RRsetArray) (ha : m₁.sections[i]? = some a)
    (hb : m₂.sections[j]? = some b) (hp : (a.rrs.map RR.view).Perm (b.rrs.map RR.view)) : a.rrsets.length = b.rrsets.length := by
  obtain ⟨_, all₁, -, ⟨-, -, -, -, s1⟩, -⟩ := parseMessage_ok hm₁ h₁
  obtain ⟨_, all₂, -, ⟨-, -, -, -, s2⟩, -⟩ := parseMessage_ok hm₂ h₂
  have g1 := s1 i a ha
  have g2 := s2 j b hb
  unfold SectionIs at g1 g2
  rw [if_neg hi] at g1
  rw [if_neg hj] at g2
  have hk : ∀ (rrs : List RR), rrs.map RR.key = (rrs.map RR.view).map viewKey := fun rrs => by rw [List.map_map]; rfl
  have e : ((sectionOf all₁ i).map RR.key).Perm ((sectionOf all₂ j).map RR.key) := by
    rw [hk, hk, ← g1.rrs_eq, ← g2.rrs_eq]; exact hp.map _
  have n1 := congrArg List.length g1.keys
  have n2 := congrArg List.length g2.keys
  rw [List.length_map] at n1 n2
  rw [n1, n2]
  have hsub : ∀ {x y : List (Nat × Nat × List UInt8)}, x.Perm y → x.eraseDups.length ≤ y.eraseDups.length := by
    intro x y h
    exact nodup_length_le (eraseDups_nodup x) fun z hz => List.mem_eraseDups.mpr (h.subset (List.mem_eraseDups.mp hz))
  exact Nat.le_antisymm (hsub e) (hsub e.symm)

/-- **C129.** If moreover the owner name of the RRset is spelled alike in all its records, the RRset is stored alike: sorted, whatever algorithm `qsort` uses, and serialized it gives
the same octets. -/
theorem C129_stored (mem₁ mem₂ : List UInt8) (len₁ len₂ : Nat) (m₁ m₂ : Message) (hm₁ : len₁ ≤ mem₁.length) (hm₂ : len₂ ≤ mem₂.length)
    (h₁ : parseMessage mem₁ len₁ = ok m₁) (h₂ : parseMessage mem₂ len₂ = ok m₂) (i j : Nat) (hi : i ≠ 0) (hj : j ≠ 0) (a b : RRsetArray) (ha : m₁.sections[i]? = some a)
    (hb : m₂.sections[j]? = some b) (hp : (a.rrs.map RR.view).Perm (b.rrs.map RR.view)) (s : RRset) (hs : s ∈ a.rrsets)
    (hspell : ∀ r ∈ a.rrs, r.rrtype = s.rrtype → r.rrclass = s.rrclass → r.name.bytes.map lower = s.name.bytes.map lower → r.name.bytes = s.name.bytes) (le : Bool) :
    ∃ s' ∈ b.rrsets, ∀ t t', SortRrset s t → SortRrset s' t' → ∃ x, serializeRrset le (serializeSize t) t = ok x ∧ serializeRrset le (serializeSize t') t' = ok x := by
  obtain ⟨s', hs', e1, e2, e3, e4, e5⟩ := C129_order mem₁ mem₂ len₁ len₂ m₁ m₂ hm₁ hm₂ h₁ h₂ i j hi hj a b ha hb hp s hs
  refine ⟨s', hs', fun t t' ht ht' => ?_⟩
  refine C78_canonical mem₁ mem₂ len₁ len₂ m₁ m₂ hm₁ hm₂ h₁ h₂ a b (List.mem_of_getElem? ha) (List.mem_of_getElem? hb) s s' t t' hs hs' ht ht' e4.symm e1.symm e2.symm ?_ e5.symm le
  obtain ⟨_, all₂, -, ⟨-, -, -, -, s2⟩, -⟩ := parseMessage_ok hm₂ h₂
  have g2 := s2 j b hb
  unfold SectionIs at g2
  rw [if_neg hj] at g2
  have ho := g2.owner s' hs'
  obtain ⟨r, hr, hn⟩ := Option.map_eq_some_iff.mp ho
  have hr' := List.mem_filter.mp (List.mem_of_mem_head? hr)
  have hv : r.view ∈ b.rrs.map RR.view := by rw [g2.rrs_eq]; exact List.mem_map_of_mem hr'.1
  obtain ⟨q, hq, hqv⟩ := List.mem_map.mp (hp.symm.subset hv)
  simp only [RR.view, Prod.mk.injEq] at hqv
  have hk : r.key = s'.key := by simpa using hr'.2
  simp only [RR.key, RRset.key, Prod.mk.injEq] at hk
  have := hspell q hq (by rw [hqv.2.1, hk.1, e1]) (by rw [hqv.2.2.1, hk.2.1, e2]) (by rw [hqv.2.2.2.1, hk.2.2, e3])
  rw [← this, hqv.2.2.2.1, hn]

/-- Two packets as in these theorems: two address records and a CNAME in the answer section, in different orders. -/
def orderMsg (x y z : List UInt8) : List UInt8 := [0, 1, 128, 0, 0, 0, 0, 3, 0, 0, 0, 0] ++ x ++ y ++ z

def orderA : List UInt8 := [1, 97, 0, 0, 1, 0, 1, 0, 0, 0, 9, 0, 4, 1, 2, 3, 4]
def orderB : List UInt8 := [1, 97, 0, 0, 1, 0, 1, 0, 0, 0, 7, 0, 4, 5, 6, 7, 8]
def orderC : List UInt8 := [1, 98, 0, 0, 5, 0, 1, 0, 0, 0, 8, 0, 3, 1, 97, 0]

theorem order_views {mem : List UInt8} {len : Nat} {x} (h : (match parseMessage mem len with
      | .ok m => m.sections[1]?.map fun a => (a.rrs.map RR.view, a.rrsets.map RRset.view)
      | _ => none) = some x) : ∃ m a, parseMessage mem len = ok m ∧ m.sections[1]? = some a ∧ a.rrs.map RR.view = x.1 ∧ a.rrsets.map RRset.view = x.2 := by
  split at h
  · rename_i m e
    obtain ⟨a, h1, rfl⟩ := Option.map_eq_some_iff.mp h
    exact ⟨m, a, e, h1, rfl, rfl⟩
  · cases h

set_option synthInstance.maxHeartbeats 400000 in
set_option synthInstance.maxSize 2000 in
example : ∃ m₁ m₂ a b, parseMessage (orderMsg orderA orderB orderC) 62 = ok m₁ ∧ parseMessage (orderMsg orderC orderB orderA) 62 = ok m₂ ∧ m₁.sections[1]? = some a ∧
    m₂.sections[1]? = some b ∧ (a.rrs.map RR.view).Perm (b.rrs.map RR.view) ∧ a.rrsets.map RRset.view ≠ b.rrsets.map RRset.view := by
  obtain ⟨m₁, a, h1, h2, h3, h4⟩ := order_views (mem := orderMsg orderA orderB orderC) (len := 62)
    (x := ([(9, 1, 1, [1, 97, 0], some [1, 2, 3, 4]), (7, 1, 1, [1, 97, 0], some [5, 6, 7, 8]), (8, 5, 1, [1, 98, 0], some [1, 97, 0])],
      [(7, 1, 1, [1, 97, 0], [[1, 2, 3, 4], [5, 6, 7, 8]]), (8, 5, 1, [1, 98, 0], [[1, 97, 0]])])) (by decide +kernel)
  obtain ⟨m₂, b, g1, g2, g3, g4⟩ := order_views (mem := orderMsg orderC orderB orderA) (len := 62)
    (x := ([(8, 5, 1, [1, 98, 0], some [1, 97, 0]), (7, 1, 1, [1, 97, 0], some [5, 6, 7, 8]), (9, 1, 1, [1, 97, 0], some [1, 2, 3, 4])],
      [(8, 5, 1, [1, 98, 0], [[1, 97, 0]]), (7, 1, 1, [1, 97, 0], [[5, 6, 7, 8], [1, 2, 3, 4]])])) (by decide +kernel)
  refine ⟨m₁, m₂, a, b, h1, g1, h2, g2, ?_, ?_⟩
  · rw [h3, g3]; decide
  · rw [h4, g4]; decide

end Wdns
