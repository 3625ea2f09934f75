import Verif.Lemmas.MessageSafe
import Mathlib.Data.List.Induction

/-!
# Properties C29 - C35 and C67: parsing of whole messages

In the theorems `mem` is the memory from the packet pointer on, `len` the packet length given by the
caller; `len = mem.length` is a packet at the very end of its memory block.
-/

namespace Wdns
open Outcome Spec

theorem parseMessage_ok {mem : List UInt8} {len : Nat} {m : Message} (hm : len ≤ mem.length)
    (h : parseMessage mem len = ok m) :
    12 ≤ len ∧ ∃ all, readAll mem len (headerSecs mem) 12 = ok all ∧ MessageOf mem all m ∧
      (∀ s r, all.find? isOpt = some (s, r) → m.rcode = u16At mem 2 % 16 ||| (r.rrttl / 65536 / 256 % 256) * 256) := by
  rcases parseMessage_eq hm with ⟨_, h'⟩ | ⟨h12, ⟨all, m', h1, h2, h3, h4⟩ | ⟨r, _, h2⟩ | ⟨_, h2⟩ | ⟨_, h2⟩ | ⟨_, h2⟩⟩
  · rw [h] at h'; cases h'
  · rw [h] at h2; cases h2; exact ⟨h12, all, h1, h3, h4.1⟩
  all_goals (rw [h] at h2; cases h2)

theorem parseMessage_sections {mem : List UInt8} {len : Nat} {m : Message} (hm : len ≤ mem.length)
    (h : parseMessage mem len = ok m) :
    12 ≤ len ∧ ∃ all, readAll mem len (headerSecs mem) 12 = ok all ∧ MessageOf mem all m ∧
      (∀ (i : Nat) a, m.sections[i]? = some a → insertAll i .empty (sectionOf all i) = ok a) := by
  rcases parseMessage_eq hm with ⟨_, h'⟩ | ⟨h12, ⟨all, m', h1, h2, h3, h4⟩ | ⟨r, _, h2⟩ | ⟨_, h2⟩ | ⟨_, h2⟩ | ⟨_, h2⟩⟩
  · rw [h] at h'; cases h'
  · rw [h] at h2; cases h2; exact ⟨h12, all, h1, h3, h4.2⟩
  all_goals (rw [h] at h2; cases h2)

theorem parseMessage_of_readAll {mem : List UInt8} {len : Nat} (hm : len ≤ mem.length) (h12 : 12 ≤ len) {all}
    (h : readAll mem len (headerSecs mem) 12 = ok all) :
    ∃ m, parseMessage mem len = ok m ∧ MessageOf mem all m ∧
      (∀ s r, all.find? isOpt = some (s, r) → m.rcode = u16At mem 2 % 16 ||| (r.rrttl / 65536 / 256 % 256) * 256) := by
  rcases parseMessage_eq hm with ⟨h', _⟩ | ⟨h12, ⟨all', m', h1, h2, h3, h4⟩ | ⟨r, h1, _⟩ | ⟨h1, _⟩ | ⟨h1, _⟩ | ⟨h1, _⟩⟩
  · omega
  · rw [h] at h1; cases h1; exact ⟨m', h2, h3, h4.1⟩
  all_goals (rw [h] at h1; cases h1)

theorem messageOf_take {mem : List UInt8} {len : Nat} (h12 : 12 ≤ len) {all m} :
    MessageOf (mem.take len) all m ↔ MessageOf mem all m := by
  unfold MessageOf
  rw [u16At_take (by omega), u16At_take (by omega)]

/-- A message: header (QR, RD, RA; one question, one answer, one additional record), question `a. A IN`,
answer `a. A IN 60 1.2.3.4` with compressed owner name, OPT record of size 4096. -/
def sampleMsg : List UInt8 :=
  [0x12, 0x34, 0x81, 0x80, 0, 1, 0, 1, 0, 0, 0, 1,
   1, 97, 0, 0, 1, 0, 1,
   0xc0, 12, 0, 1, 0, 1, 0, 0, 0, 60, 0, 4, 1, 2, 3, 4,
   0, 0, 41, 0x10, 0, 0, 0, 0x80, 0, 0, 0]

/-- The message object of `sampleMsg`. -/
def sampleParsed : Message :=
  { id := 0x1234, flags := 0x8180, rcode := 0, edns := ⟨true, 0, 0x8000, 4096, some ⟨0, []⟩⟩
    sections := [
      ⟨[⟨0, 1, 1, ⟨3, [1, 97, 0]⟩, none⟩], [⟨0, 1, 1, ⟨3, [1, 97, 0]⟩, []⟩]⟩,
      ⟨[⟨60, 1, 1, ⟨3, [1, 97, 0]⟩, some ⟨4, [1, 2, 3, 4]⟩⟩], [⟨60, 1, 1, ⟨3, [1, 97, 0]⟩, [⟨4, [1, 2, 3, 4]⟩]⟩]⟩,
      ⟨[], []⟩, ⟨[], []⟩] }

theorem sample_parse : parseMessage sampleMsg 46 = ok sampleParsed := by decide +kernel

/-! ## C67 -/

/-- **C67 (completeness).** If the octets of the packet are a header and records (RFC 1035 4.1), the parser
succeeds and the message object holds exactly these records: the first OPT record as EDNS information, the others
in their sections, in order, and grouped into RRsets.  This does not depend on what follows the packet
in memory. -/
theorem C67_parse_complete (mem : List UInt8) (len : Nat) (all : List (Nat × RR)) (hm : len ≤ mem.length)
    (h64 : len < 2 ^ 64) (h12 : 12 ≤ len) (h : MsgRecs (mem.take len) all) :
    ∃ m, parseMessage mem len = ok m ∧ MessageOf (mem.take len) all m := by
  obtain ⟨m, h1, h2, _⟩ := parseMessage_of_readAll hm h12 (readAll_of_msgRecs hm h64 h12 h)
  exact ⟨m, h1, (messageOf_take h12).mpr h2⟩

/-- **C67 (soundness), partial.** If the parser accepts a packet that ends at the end of its memory block, the packet
is a header followed by records, and the message object holds exactly these.  Missing: packets
with an SVCB/HTTPS record that has a SvcParam with a length field of 65532 or more (see C40: wrap in SvcParams), and packets with readable memory
behind them (see C35: one octet behind the packet may be used). -/
theorem C67_parse_sound_partial (msg : List UInt8) (m : Message) (h64 : msg.length < 2 ^ 64) (hno : SvcNoLong msg)
    (h : parseMessage msg msg.length = ok m) : ∃ all, MsgRecs msg all ∧ MessageOf msg all m := by
  obtain ⟨h12, all, h1, h2, _⟩ := parseMessage_ok (Nat.le_refl _) h
  exact ⟨all, msgRecs_of_readAll h64 hno h12 h1, h2⟩

theorem u16At_ge {msg : List UInt8} {e : Nat} (h : msg.length ≤ e) : u16At msg e = 0 := by
  simp [u16At, be16, List.getD, List.getElem?_eq_none h, List.getElem?_eq_none (Nat.le_succ_of_le h)]

/-- A message in which the numbers 64 and 65 do not appear has no SVCB or HTTPS record. -/
theorem svcNoLong_of_types {msg : List UInt8} (h : ∀ e < msg.length, ¬ (u16At msg e = 64 ∨ u16At msg e = 65)) : SvcNoLong msg := by
  intro p n o _ _ _ e he ht
  have := encEnd_lt_length he
  by_cases hl : e < msg.length
  · exact absurd ht (h e hl)
  · rw [u16At_ge (by omega)] at ht; omega

theorem sample_svc : SvcNoLong sampleMsg := svcNoLong_of_types (by decide +kernel)

example : ∃ all, MsgRecs sampleMsg all ∧ MessageOf sampleMsg all sampleParsed :=
  C67_parse_sound_partial sampleMsg sampleParsed (by decide) sample_svc sample_parse

/-- The records of `sampleMsg`. -/
theorem sample_recs : ∃ all, MsgRecs sampleMsg all ∧
    all.find? isOpt = some (3, ⟨0x8000, 41, 4096, ⟨1, [0]⟩, some ⟨0, []⟩⟩) := by
  obtain ⟨h12, all, h1, _, _⟩ := parseMessage_ok (mem := sampleMsg) (len := 46) (by decide) sample_parse
  have : readAll sampleMsg 46 (headerSecs sampleMsg) 12 = ok [
    (0, ⟨0, 1, 1, ⟨3, [1, 97, 0]⟩, none⟩), (1, ⟨60, 1, 1, ⟨3, [1, 97, 0]⟩, some ⟨4, [1, 2, 3, 4]⟩⟩),
    (3, ⟨0x8000, 41, 4096, ⟨1, [0]⟩, some ⟨0, []⟩⟩)] := by decide +kernel
  refine ⟨_, msgRecs_of_readAll (by decide) sample_svc (by decide) this, by decide⟩

example : ∃ m, parseMessage (sampleMsg ++ [5, 6]) 46 = ok m := by
  obtain ⟨all, h1, _⟩ := sample_recs
  obtain ⟨m, h3, _⟩ := C67_parse_complete (sampleMsg ++ [5, 6]) 46 all (by decide) (by decide) (by decide)
    ((show (sampleMsg ++ [5, 6]).take 46 = sampleMsg by decide) ▸ h1)
  exact ⟨m, h3⟩

/-! ## C29 -/

/-- **C29.** A packet shorter than a header is rejected with `wdns_res_len`. -/
theorem C29_short_rejected (mem : List UInt8) (len : Nat) (h : len < 12) : parseMessage mem len = err .len := by
  simp [parseMessage, h]

/-- **C29.** The identifier and the flags are the big-endian header fields. -/
theorem C29_header (mem : List UInt8) (len : Nat) (m : Message) (hm : len ≤ mem.length)
    (h : parseMessage mem len = ok m) :
    12 ≤ len ∧ m.id = u16At (mem.take len) 0 ∧ m.flags = u16At (mem.take len) 2 ∧
    (m.edns.present = false → m.rcode = u16At (mem.take len) 2 % 16) := by
  obtain ⟨h12, all, _, ⟨h1, h2, h3, _⟩, _⟩ := parseMessage_ok hm h
  rw [u16At_take (by omega), u16At_take (by omega)]
  refine ⟨h12, h1, h2, ?_⟩
  intro hp
  cases hf : all.find? isOpt with
  | none => rw [hf] at h3; exact h3.2
  | some r => obtain ⟨s, r⟩ := r; rw [hf] at h3; simp only at h3; rw [h3] at hp; cases hp

/-- A case of `C29_header`: the sample message. -/
example : sampleParsed.id = 0x1234 := (C29_header sampleMsg 46 sampleParsed (by decide) sample_parse).2.1.trans (by decide)

/-- **C29.** The flag macros recover the fields of the header (RFC 1035 4.1.1, RFC 4035): if the two
flag octets are `QR|Opcode|AA|TC|RD` and `RA|Z|AD|CD|RCODE`, the macros return these. -/
theorem C29_flag_macros (mem : List UInt8) (len : Nat) (m : Message) (hm : len ≤ mem.length)
    (h : parseMessage mem len = ok m) (qr opcode aa tc rd' ra z ad cd rcode : Nat)
    (hqr : qr < 2) (hop : opcode < 16) (haa : aa < 2) (htc : tc < 2) (hrd : rd' < 2) (hra : ra < 2) (hz : z < 2)
    (had : ad < 2) (hcd : cd < 2) (hrc : rcode < 16)
    (h2 : ((mem.take len).getD 2 0).toNat = qr * 128 + opcode * 8 + aa * 4 + tc * 2 + rd')
    (h3 : ((mem.take len).getD 3 0).toNat = ra * 128 + z * 64 + ad * 32 + cd * 16 + rcode) :
    m.qr = qr ∧ m.opcode = opcode ∧ m.aa = aa ∧ m.tc = tc ∧ m.rd = rd' ∧ m.ra = ra ∧ m.z = z ∧ m.ad = ad ∧
    m.cd = cd ∧ (m.edns.present = false → m.rcode = rcode) := by
  obtain ⟨_, _, hf, hr⟩ := C29_header mem len m hm h
  have e : u16At (mem.take len) 2 = (qr * 128 + opcode * 8 + aa * 4 + tc * 2 + rd') * 256 +
      (ra * 128 + z * 64 + ad * 32 + cd * 16 + rcode) := by
    unfold u16At be16; rw [h2, h3]
  rw [e] at hf hr
  have m1 : ∀ x : Nat, x &&& 1 = x % 2 := fun x => Nat.and_two_pow_sub_one_eq_mod x 1
  have m15 : ∀ x : Nat, x &&& 15 = x % 16 := fun x => Nat.and_two_pow_sub_one_eq_mod x 4
  simp only [Message.qr, Message.opcode, Message.aa, Message.tc, Message.rd, Message.ra, Message.z, Message.ad,
    Message.cd, hf, m1, m15, Nat.shiftRight_eq_div_pow, Nat.reducePow]
  refine ⟨by omega, by omega, by omega, by omega, by omega, by omega, by omega, by omega, by omega, ?_⟩
  intro hp
  rw [hr hp]; omega

example : sampleParsed.qr = 1 ∧ sampleParsed.opcode = 0 ∧ sampleParsed.aa = 0 ∧ sampleParsed.rd = 1 ∧
    sampleParsed.ra = 1 := by decide

/-! ## C30 -/

/-- The number of RRs of all sections of a message. -/
def Spec.totalRrs (m : Message) : Nat := (m.sections.map fun a => a.rrs.length).sum

theorem rrs_length_of_sectionIs {i rrs a} (h : SectionIs i rrs a) : a.rrs.length = rrs.length := by
  unfold SectionIs at h
  split at h
  · have := congrArg List.length h.rrs_eq; simpa using this
  · have := congrArg List.length h.rrs_eq; simpa using this

theorem headerSecs_mem {mem : List UInt8} {i : Nat} (hi : i < 4) :
    (i, u16At mem (4 + 2 * i)) ∈ headerSecs mem := by
  match i, hi with
  | 0, _ => simp [headerSecs]
  | 1, _ => simp [headerSecs]
  | 2, _ => simp [headerSecs]
  | 3, _ => simp [headerSecs]
  | n + 4, h => omega

theorem eraseDups_length_le {α} [BEq α] [LawfulBEq α] (l : List α) : l.eraseDups.length ≤ l.length := by
  induction l using List.reverseRecOn with
  | nil => simp
  | append_singleton l x ih =>
    rw [eraseDups_snoc]
    split
    · simp; omega
    · simp; omega

theorem eraseDups_mem {α} [BEq α] [LawfulBEq α] (l : List α) (y : α) : y ∈ l.eraseDups ↔ y ∈ l := by
  induction l using List.reverseRecOn with
  | nil => simp
  | append_singleton l x ih =>
    rw [eraseDups_snoc]
    split
    · rename_i h
      simp only [ih, List.mem_append, List.mem_singleton]
      constructor
      · exact .inl
      · rintro (h' | rfl)
        · exact h'
        · exact h
    · simp [ih]

theorem eraseDups_nodup {α} [BEq α] [LawfulBEq α] (l : List α) : l.eraseDups.Nodup := by
  induction l using List.reverseRecOn with
  | nil => simp
  | append_singleton l x ih =>
    rw [eraseDups_snoc]
    split
    · exact ih
    · rename_i h
      rw [List.nodup_append]
      refine ⟨ih, by simp, ?_⟩
      intro a ha b hb
      simp only [List.mem_singleton] at hb
      subst hb
      rintro rfl
      exact h ((eraseDups_mem _ _).mp ha)

/-- **C30.** No section has more RRs than the header says. -/
theorem C30_section_counts (mem : List UInt8) (len : Nat) (m : Message) (hm : len ≤ mem.length)
    (h : parseMessage mem len = ok m) (i : Nat) (a : RRsetArray) (ha : m.sections[i]? = some a) :
    a.rrs.length ≤ u16At (mem.take len) (4 + 2 * i) ∧ a.rrsets.length ≤ a.rrs.length := by
  obtain ⟨h12, all, h1, ⟨_, _, _, h4, h5⟩, _⟩ := parseMessage_ok hm h
  have hi : i < 4 := by have := (List.getElem?_eq_some_iff.mp ha).1; omega
  rw [u16At_take (by omega)]
  have hs := h5 i a ha
  have h6 := (readAll_valid (headerSecs_nodup mem) h1).2 _ (headerSecs_mem hi)
  have h7 := (sectionOf_sub all i).2
  refine ⟨by rw [rrs_length_of_sectionIs hs]; simp only at h6; omega, ?_⟩
  rw [rrs_length_of_sectionIs hs]
  unfold SectionIs at hs
  split at hs
  · have := congrArg List.length hs.rrsets_eq; simp at this; omega
  · have := congrArg List.length hs.keys
    rw [List.length_map] at this
    rw [this]
    exact Nat.le_trans (eraseDups_length_le _) (by simp)

/-- A case of `C30_section_counts`: the answer section of the sample. -/
example : ∃ a, sampleParsed.sections[1]? = some a ∧ a.rrs.length ≤ 1 := by
  refine ⟨_, rfl, ?_⟩
  exact Nat.le_trans (C30_section_counts sampleMsg 46 sampleParsed (by decide) sample_parse 1 _ rfl).1 (by decide)

theorem length_by_tags (l : List (Nat × RR)) (h : ∀ r ∈ l, r.1 < 4) :
    l.length = (l.filter (fun r => r.1 = 0)).length + (l.filter (fun r => r.1 = 1)).length +
      (l.filter (fun r => r.1 = 2)).length + (l.filter (fun r => r.1 = 3)).length := by
  induction l with
  | nil => rfl
  | cons r l ih =>
    have h1 := ih (fun r hr => h r (by simp [hr]))
    have h2 := h r (by simp)
    obtain ⟨i, r⟩ := r
    simp only at h2
    match i, h2 with
    | 0, _ => simp at h1 ⊢; omega
    | 1, _ => simp at h1 ⊢; omega
    | 2, _ => simp at h1 ⊢; omega
    | 3, _ => simp at h1 ⊢; omega
    | n + 4, h => omega

theorem tags_lt {mem : List UInt8} {len p : Nat} {all} (h : readAll mem len (headerSecs mem) p = ok all) :
    ∀ r ∈ all, r.1 < 4 := by
  intro r hr
  have := readAll_tags h r hr
  simp only [headerSecs, List.map_cons, List.map_nil, List.mem_cons, List.not_mem_nil, or_false] at this
  omega

/-- **C30.** All sections together have at most as many RRs as the header says, and one less if there is EDNS
information. -/
theorem C30_total_count (mem : List UInt8) (len : Nat) (m : Message) (hm : len ≤ mem.length)
    (h : parseMessage mem len = ok m) :
    m.sections.length = 4 ∧
    Spec.totalRrs m + (if m.edns.present then 1 else 0) ≤
      u16At (mem.take len) 4 + u16At (mem.take len) 6 + u16At (mem.take len) 8 + u16At (mem.take len) 10 := by
  obtain ⟨h12, all, h1, ⟨_, _, h3, h4, h5⟩, _⟩ := parseMessage_ok hm h
  refine ⟨h4, ?_⟩
  rw [u16At_take (by omega), u16At_take (by omega), u16At_take (by omega), u16At_take (by omega)]
  have hv := (readAll_valid (headerSecs_nodup mem) h1).2
  have v0 := hv _ (headerSecs_mem (i := 0) (by omega))
  have v1 := hv _ (headerSecs_mem (i := 1) (by omega))
  have v2 := hv _ (headerSecs_mem (i := 2) (by omega))
  have v3 := hv _ (headerSecs_mem (i := 3) (by omega))
  have ht := tags_lt h1
  have e1 := length_by_tags all ht
  have e2 := length_by_tags (all.eraseP isOpt) (fun r hr => ht r (List.mem_of_mem_eraseP hr))
  have hsum : Spec.totalRrs m = (all.eraseP isOpt).length := by
    rw [e2]
    obtain ⟨id, fl, rc, ed, ss⟩ := m
    simp only at h4 h5
    match ss, h4 with
    | [a0, a1, a2, a3], _ =>
      have l0 := rrs_length_of_sectionIs (h5 0 a0 rfl)
      have l1 := rrs_length_of_sectionIs (h5 1 a1 rfl)
      have l2 := rrs_length_of_sectionIs (h5 2 a2 rfl)
      have l3 := rrs_length_of_sectionIs (h5 3 a3 rfl)
      simp only [sectionOf, List.length_map] at l0 l1 l2 l3
      simp only [Spec.totalRrs, List.map_cons, List.map_nil, List.sum_cons, List.sum_nil, l0, l1, l2, l3]
      omega
  have hopt : (all.eraseP isOpt).length + (if m.edns.present then 1 else 0) ≤ all.length := by
    cases hf : all.find? isOpt with
    | none =>
      rw [hf] at h3
      have := (List.eraseP_sublist (p := isOpt) (l := all)).length_le
      simp [h3.1]; exact this
    | some r =>
      have hr := List.mem_of_find?_eq_some hf
      have hp : isOpt r = true := List.find?_some hf
      have := List.length_eraseP_of_mem hr hp
      have := List.length_pos_of_mem hr
      split <;> omega
  simp only [Nat.mul_zero, Nat.add_zero, Nat.reduceMul, Nat.reduceAdd] at v0 v1 v2 v3
  omega

example : Spec.totalRrs sampleParsed = 2 ∧ sampleParsed.edns.present = true := by decide

/-! ## C31 -/

theorem map_eq_mem {α β γ} {f : α → γ} {g : β → γ} {l : List α} {l' : List β} (h : l.map f = l'.map g) :
    ∀ x ∈ l, ∃ y ∈ l', f x = g y := by
  intro x hx
  have : f x ∈ l'.map g := by rw [← h]; exact List.mem_map_of_mem hx
  obtain ⟨y, hy, e⟩ := List.mem_map.mp this
  exact ⟨y, hy, e.symm⟩

/-- **C31.** All owner names of a parsed message are legal uncompressed names. -/
theorem C31_owner_names (mem : List UInt8) (len : Nat) (m : Message) (hm : len ≤ mem.length)
    (h : parseMessage mem len = ok m) (a : RRsetArray) (ha : a ∈ m.sections) :
    (∀ r ∈ a.rrs, ∃ n, WF n ∧ r.name.bytes = wire n) ∧ (∀ s ∈ a.rrsets, ∃ n, WF n ∧ s.name.bytes = wire n) := by
  obtain ⟨h12, all, h1, ⟨_, _, _, h4, h5⟩, _⟩ := parseMessage_ok hm h
  obtain ⟨i, hi⟩ := List.mem_iff_getElem?.mp ha
  have hs := h5 i a hi
  have hn : ∀ r ∈ sectionOf all i, ∃ n, WF n ∧ r.name.bytes = wire n := by
    intro r hr
    obtain ⟨o, sz, hp⟩ := (readAll_valid (headerSecs_nodup mem) h1).1 _ ((sectionOf_sub all i).1 r hr)
    obtain ⟨n, hw, hn⟩ := (parseMessageRr_valid hp).2.1
    refine ⟨n, hw, ?_⟩
    simp only at hn
    rw [hn]; simp [CName.bytes]
  unfold SectionIs at hs
  split at hs
  · constructor
    · intro r hr
      obtain ⟨r', h1, h2⟩ := map_eq_mem hs.rrs_eq r hr
      obtain ⟨n, hw, hb⟩ := hn r' h1
      simp only [RR.view, Prod.mk.injEq] at h2
      exact ⟨n, hw, by rw [h2.2.2.2.1, hb]⟩
    · intro r hr
      obtain ⟨r', h1, h2⟩ := map_eq_mem hs.rrsets_eq r hr
      obtain ⟨n, hw, hb⟩ := hn r' h1
      simp only [RRset.view, Prod.mk.injEq] at h2
      exact ⟨n, hw, by rw [h2.2.2.2.1, hb]⟩
  · constructor
    · intro r hr
      obtain ⟨r', h1, h2⟩ := map_eq_mem hs.rrs_eq r hr
      obtain ⟨n, hw, hb⟩ := hn r' h1
      simp only [RR.view, Prod.mk.injEq] at h2
      exact ⟨n, hw, by rw [h2.2.2.2.1, hb]⟩
    · intro s hs'
      have := hs.owner s hs'
      cases hf : ((sectionOf all i).filter fun r => r.key = s.key).head? with
      | none => rw [hf] at this; cases this
      | some r' =>
        rw [hf] at this
        simp only [Option.map_some, Option.some.injEq] at this
        have hmem := (List.mem_filter.mp (List.mem_of_mem_head? hf)).1
        obtain ⟨n, hw, hb⟩ := hn r' hmem
        exact ⟨n, hw, by rw [← this, hb]⟩

/-- A case of `C31_owner_names`: the sample has records. -/
example : ∃ a ∈ sampleParsed.sections, a.rrs ≠ [] ∧ ∀ r ∈ a.rrs, ∃ n, WF n ∧ r.name.bytes = wire n := by
  have hm : sampleParsed.sections[1]'(by decide) ∈ sampleParsed.sections := List.getElem_mem _
  exact ⟨_, hm, by decide, (C31_owner_names sampleMsg 46 sampleParsed (by decide) sample_parse _ hm).1⟩

/-! ## C32 -/

/-- What a user sees of EDNS when the records of the message are `all` (tagged with their sections): the
first OPT record gives the EDNS fields (RFC 6891 6.1.3: UDP size in the class, version in bits 16-23 of the TTL, flags in bits 0-15, options in the
rdata) and is in no section; all other records are in their sections in order; without an OPT record all EDNS fields
are zero. -/
def Spec.EdnsOf (all : List (Nat × RR)) (m : Message) : Prop :=
  (m.edns.present = true ↔ ∃ r ∈ all, r.2.rrtype = 41) ∧
  (∀ pre s r post, all = pre ++ (s, r) :: post → r.rrtype = 41 → (∀ x ∈ pre, x.2.rrtype ≠ 41) →
    m.edns.present = true ∧ m.edns.version = r.rrttl / 2 ^ 16 % 256 ∧ m.edns.flags = r.rrttl % 2 ^ 16 ∧
    m.edns.size = r.rrclass ∧ m.edns.options = r.rdata ∧
    ∀ i a, m.sections[i]? = some a →
      a.rrs.map RR.view = (((pre ++ post).filter fun x => x.1 = i).map fun x => x.2.view)) ∧
  ((∀ x ∈ all, x.2.rrtype ≠ 41) →
    m.edns.present = false ∧ m.edns.version = 0 ∧ m.edns.flags = 0 ∧ m.edns.size = 0 ∧ m.edns.options = none ∧
    ∀ i a, m.sections[i]? = some a →
      a.rrs.map RR.view = ((all.filter fun x => x.1 = i).map fun x => x.2.view))

theorem sectionIs_view {i rrs a} (hs : SectionIs i rrs a) (hq : i = 0 → ∀ r ∈ rrs, r.rdata = none) :
    a.rrs.map RR.view = rrs.map RR.view := by
  unfold SectionIs at hs
  split at hs
  · rename_i h0
    rw [hs.rrs_eq]
    apply List.map_congr_left
    intro r hr
    simp [RR.view, hq h0 r hr]
  · exact hs.rrs_eq

theorem ednsOf {mem : List UInt8} {len p : Nat} {all m} (h1 : readAll mem len (headerSecs mem) p = ok all)
    (h : MessageOf mem all m) : Spec.EdnsOf all m := by
  obtain ⟨_, _, h3, h4, h5⟩ := h
  have hq : ∀ i, i = 0 → ∀ r ∈ sectionOf all i, r.rdata = none := by
    rintro i rfl r hr
    obtain ⟨o, sz, hp⟩ := (readAll_valid (headerSecs_nodup mem) h1).1 _ ((sectionOf_sub all 0).1 r hr)
    exact ((parseMessageRr_valid hp).2.2.1 rfl).1
  have hview : ∀ i a, m.sections[i]? = some a → a.rrs.map RR.view = (sectionOf all i).map RR.view :=
    fun i a ha => sectionIs_view (h5 i a ha) (hq i)
  refine ⟨?_, ?_, ?_⟩
  · cases hf : all.find? isOpt with
    | none =>
      rw [hf] at h3
      have := List.find?_eq_none.mp hf
      simp only [h3.1, Bool.false_eq_true, false_iff, not_exists, not_and]
      intro r hr
      simpa [isOpt] using this r hr
    | some r =>
      obtain ⟨s, r⟩ := r
      rw [hf] at h3
      simp only at h3
      have hp : isOpt (s, r) = true := List.find?_some hf
      simp only [h3, true_iff]
      exact ⟨(s, r), List.mem_of_find?_eq_some hf, by simpa [isOpt] using hp⟩
  · intro pre s r post he hr hpre
    subst he
    have hnone : pre.find? isOpt = none := by
      rw [List.find?_eq_none]; intro x hx; simpa [isOpt] using hpre x hx
    have hf : (pre ++ (s, r) :: post).find? isOpt = some (s, r) := by
      rw [List.find?_append, hnone]; simp [isOpt, hr]
    rw [hf] at h3
    simp only at h3
    rw [h3]
    refine ⟨rfl, rfl, rfl, rfl, rfl, ?_⟩
    intro i a ha
    rw [hview i a ha, sectionOf]
    rw [List.eraseP_append_right _ (fun x hx => by simpa [isOpt] using hpre x hx),
      List.eraseP_cons_of_pos (by simp [isOpt, hr])]
    simp [Function.comp_def]
  · intro hno
    have hf : all.find? isOpt = none := List.find?_eq_none.mpr (fun x hx => by simpa [isOpt] using hno x hx)
    rw [hf] at h3
    rw [h3.1]
    refine ⟨rfl, rfl, rfl, rfl, rfl, ?_⟩
    intro i a ha
    rw [hview i a ha, sectionOf, List.eraseP_of_forall_not (fun x hx => by simpa [isOpt] using hno x hx)]
    simp [Function.comp_def]

/-- **C32.** For a packet consisting of a header and the records `all`. -/
theorem C32_edns (mem : List UInt8) (len : Nat) (all : List (Nat × RR)) (hm : len ≤ mem.length)
    (h64 : len < 2 ^ 64) (h12 : 12 ≤ len) (h : MsgRecs (mem.take len) all) :
    ∃ m, parseMessage mem len = ok m ∧ Spec.EdnsOf all m := by
  have hr := readAll_of_msgRecs hm h64 h12 h
  obtain ⟨m, h1, h2, _⟩ := parseMessage_of_readAll hm h12 hr
  exact ⟨m, h1, ednsOf hr h2⟩

/-- **C32.** For every packet the parser accepts, with the records `all` that the record parser delivers. -/
theorem C32_edns_accepted (mem : List UInt8) (len : Nat) (m : Message) (hm : len ≤ mem.length)
    (h : parseMessage mem len = ok m) :
    ∃ all, (∀ r ∈ all, ∃ o sz, parseMessageRr r.1 mem 0 len o = ok (r.2, sz)) ∧ Spec.EdnsOf all m := by
  obtain ⟨h12, all, h1, h2, _⟩ := parseMessage_ok hm h
  exact ⟨all, (readAll_valid (headerSecs_nodup mem) h1).1, ednsOf h1 h2⟩

example : ∃ m, parseMessage sampleMsg 46 = ok m ∧ m.edns.present = true ∧ m.edns.size = 4096 :=
  ⟨_, sample_parse, rfl, rfl⟩

/-! ## C33 -/

/-- RFC 6891 6.1.3: the extended RCODE from the OPT TTL and the header RCODE. -/
def Spec.extRcode (ttl flags : Nat) : Nat := ttl / 2 ^ 24 * 16 + flags % 16

/-- **C33, partial.** The extended RCODE is right for messages whose upper 8 RCODE bits are zero.  Missing
(and false, see below): other values. -/
theorem C33_ext_rcode_partial (mem : List UInt8) (len : Nat) (all : List (Nat × RR)) (hm : len ≤ mem.length)
    (h64 : len < 2 ^ 64) (h12 : 12 ≤ len) (h : MsgRecs (mem.take len) all)
    (s : Nat) (r : RR) (hopt : all.find? isOpt = some (s, r)) (hz : r.rrttl < 2 ^ 24) :
    ∃ m, parseMessage mem len = ok m ∧ m.rcode = Spec.extRcode r.rrttl (u16At (mem.take len) 2) := by
  obtain ⟨m, h1, _, h3⟩ := parseMessage_of_readAll hm h12 (readAll_of_msgRecs hm h64 h12 h)
  refine ⟨m, h1, ?_⟩
  rw [h3 s r hopt, u16At_take (by omega), Spec.extRcode, show r.rrttl / 65536 / 256 % 256 = 0 by omega,
    show r.rrttl / 2 ^ 24 = 0 by omega]
  simp

/-- **C33, the actual value**: the upper bits are placed at bit 8 instead of bit 4. -/
theorem C33_actual_rcode (mem : List UInt8) (len : Nat) (all : List (Nat × RR)) (hm : len ≤ mem.length)
    (h64 : len < 2 ^ 64) (h12 : 12 ≤ len) (h : MsgRecs (mem.take len) all)
    (s : Nat) (r : RR) (hopt : all.find? isOpt = some (s, r)) (hr : r.rrttl < 2 ^ 32) :
    ∃ m, parseMessage mem len = ok m ∧ m.rcode = r.rrttl / 2 ^ 24 * 256 + u16At (mem.take len) 2 % 16 := by
  obtain ⟨m, h1, _, h3⟩ := parseMessage_of_readAll hm h12 (readAll_of_msgRecs hm h64 h12 h)
  refine ⟨m, h1, ?_⟩
  rw [h3 s r hopt, u16At_take (by omega), Nat.or_comm, show 256 = 2 ^ 8 by rfl, Nat.mul_comm,
    ← Nat.two_pow_add_eq_or_of_lt (by omega)]
  omega

/-- A response with an OPT record of extended RCODE 16 (BADVERS): header RCODE 0, upper bits 1. -/
def badversMsg : List UInt8 :=
  [0, 1, 0x80, 0, 0, 0, 0, 0, 0, 0, 0, 1, 0, 0, 41, 0x10, 0, 1, 0, 0, 0, 0, 0]

/-- **C33 is violated**: a BADVERS response (16) gets rcode 256. -/
theorem C33_ext_rcode_violated :
    MsgRecs badversMsg [(3, ⟨0x01000000, 41, 4096, ⟨1, [0]⟩, some ⟨0, []⟩⟩)] ∧
    Spec.extRcode 0x01000000 (u16At badversMsg 2) = 16 ∧
    ∃ m, parseMessage badversMsg badversMsg.length = ok m ∧ m.rcode = 256 := by
  have hs : SvcNoLong badversMsg := svcNoLong_of_types (by decide +kernel)
  refine ⟨msgRecs_of_readAll (by decide) hs (by decide) (by decide +kernel), by decide, _,
    (by decide +kernel : parseMessage badversMsg 23 =
      ok ⟨1, 0x8000, 256, ⟨true, 0, 0, 4096, some ⟨0, []⟩⟩, [⟨[], []⟩, ⟨[], []⟩, ⟨[], []⟩, ⟨[], []⟩]⟩), rfl⟩

/-! ## C34 -/

/-- **C34, partial.** The parser returns or fails on every packet none of whose SVCB/HTTPS records has a SvcParam
with a length field of 65532 or more (behind proper SvcParams).  Missing (and false, see below): packets with such a record. -/
theorem C34_terminates_partial (mem : List UInt8) (len : Nat) (hm : len ≤ mem.length) (h64 : len < 2 ^ 64)
    (hno : SvcNoLong (mem.take len)) : parseMessage mem len ≠ hang := by
  by_cases h12 : len < 12
  · unfold parseMessage; rw [if_pos h12]; simp
  have hc : CleanFrom (mem.take len) (headerSecs mem) 12 := by
    have := cleanFrom_of_svcNoLong hno
    simpa [headerSecs, u16At_take (show 4 + 1 < len by omega), u16At_take (show 6 + 1 < len by omega), u16At_take (show 8 + 1 < len by omega),
      u16At_take (show 10 + 1 < len by omega)] using this
  have := readAll_ne_hang hm h64 _ _ hc
  rcases parseMessage_eq hm with ⟨_, h⟩ | ⟨_, ⟨_, _, _, h, _⟩ | ⟨_, _, h⟩ | ⟨_, h⟩ | ⟨h, _⟩ | ⟨_, h⟩⟩
  · simp [h]
  · simp [h]
  · simp [h]
  · simp [h]
  · exact absurd h this
  · simp [h]

example : parseMessage sampleMsg 46 ≠ hang :=
  C34_terminates_partial sampleMsg 46 (by decide) (by decide) (by change SvcNoLong sampleMsg; exact sample_svc)

/-- An HTTPS record with the SvcParam key 5, length 0xFFFC. -/
def hangMsg : List UInt8 :=
  [0, 1, 0x80, 0, 0, 0, 0, 1, 0, 0, 0, 0, 0, 0, 65, 0, 1, 0, 0, 0, 0, 0, 7, 0, 1, 0, 0, 5, 0xff, 0xfc]

/-- **C34 is violated**: on this packet the parser does not return; the loop over the SvcParams makes
no progress whatever number of iterations it is given. -/
theorem C34_terminates_violated :
    parseMessage hangMsg hangMsg.length = hang ∧
    ∀ fuel out, pSvcparams hangMsg fuel ⟨26, 4, out⟩ = hang := by
  refine ⟨by decide +kernel, ?_⟩
  intro fuel
  induction fuel with
  | zero => intro out; rfl
  | succ fuel ih =>
    intro out
    have : pSvcparams hangMsg (fuel + 1) ⟨26, 4, out⟩ = pSvcparams hangMsg fuel ⟨26, 4, out⟩ := by
      simp only [pSvcparams]
      simp [hangMsg, rd, be16, svcparamKeyValidate, pCopy, rdN]
    rw [this, ih]

theorem validate_true {mem : List UInt8} {key l val : Nat} (h : SvcLenOK key l) (h1 : key ≠ 1) : svcparamKeyValidate mem key l val = ok true := by
  unfold svcparamKeyValidate
  by_cases h0 : key = 0
  · subst h0; simpa [SvcLenOK] using h
  by_cases h2 : key = 2
  · subst h2; simpa [SvcLenOK] using h
  by_cases h3 : key = 3
  · subst h3; simpa [SvcLenOK] using h
  by_cases h4 : key = 4
  · subst h4; simpa [SvcLenOK] using h
  by_cases h6 : key = 6
  · subst h6; simpa [SvcLenOK] using h
  by_cases h7 : key = 65535
  · subst h7; simp [SvcLenOK] at h
  simp [h0, h1, h2, h3, h4, h6, h7]

theorem hang_here {mem : List UInt8} {src : Nat} {k0 k1 : UInt8} {w : List UInt8} (hw : Win mem src (k0 :: k1 :: 0xff :: 0xfc :: w))
    (hk : SvcLenOK (be16 k0 k1) 65532) (h1 : be16 k0 k1 ≠ 1) : ∀ fuel out,
    pSvcparams mem fuel ⟨src, (k0 :: k1 :: 0xff :: 0xfc :: w).length, out⟩ = hang := by
  intro fuel
  induction fuel with
  | zero => intro out; rfl
  | succ fuel ih =>
    intro out
    have r0 := hw.rd
    have r1 := hw.tail.rd
    have r2 := hw.tail.tail.rd
    have r3 := hw.tail.tail.tail.rd
    rw [show src + 1 + 1 = src + 2 by omega] at r2 r3
    rw [show src + 2 + 1 = src + 3 by omega] at r3
    simp only [pSvcparams, List.length_cons, gt_iff_lt, Nat.zero_lt_succ, if_true, r0, r1, ok_bind]
    rw [if_neg (by omega)]
    simp only [r2, r3, ok_bind]
    rw [show be16 0xff 0xfc = 65532 by decide, show (2 + 2 + 65532) % 65536 = 0 by decide, if_neg (by omega), validate_true hk h1]
    simp only [ok_bind, Bool.true_eq_false, if_false]
    have hc : pCopy mem ⟨src, w.length + 1 + 1 + 1 + 1, out⟩ 0 = ok ⟨src, w.length + 1 + 1 + 1 + 1, out⟩ := by
      have := pCopy_win (f := []) (out := out) hw (b := w.length + 1 + 1 + 1 + 1) (n := 0) (by simp) (by simp)
      simpa using this
    rw [hc, ok_bind]
    exact ih out

theorem hang_later {mem : List UInt8} {k0 k1 : UInt8} {w : List UInt8}
    (hk : SvcLenOK (be16 k0 k1) 65532) (h1 : be16 k0 k1 ≠ 1) {ps : List UInt8} (hp : Params ps) : ∀ src,
    Win mem src (ps ++ k0 :: k1 :: 0xff :: 0xfc :: w) → (ps ++ k0 :: k1 :: 0xff :: 0xfc :: w).length < 65536 → ∀ fuel out,
    pSvcparams mem fuel ⟨src, (ps ++ k0 :: k1 :: 0xff :: 0xfc :: w).length, out⟩ = hang := by
  induction hp with
  | nil => intro src hw _; exact hang_here hw hk h1
  | @cons a b c d v rest hv hok _ ih =>
    intro src hw hl fuel out
    generalize hz : k0 :: k1 :: 0xff :: 0xfc :: w = z at *
    cases fuel with
    | zero => rfl
    | succ fuel =>
      have e : a :: b :: c :: d :: (v ++ rest) ++ z = (a :: b :: c :: d :: v) ++ (rest ++ z) := by simp
      rw [e] at hw hl
      rw [e]
      have hw' : Win mem src (a :: b :: c :: d :: (v ++ (rest ++ z))) := by simpa using hw
      have r0 := hw'.rd
      have r1 := hw'.tail.rd
      have r2 := hw'.tail.tail.rd
      have r3 := hw'.tail.tail.tail.rd
      rw [show src + 1 + 1 = src + 2 by omega] at r2 r3
      rw [show src + 2 + 1 = src + 3 by omega] at r3
      have hvw : Win mem (src + 4) v := by
        have := hw'.tail.tail.tail.tail
        exact this.left
      obtain ⟨bb, hb1, hb2⟩ := svcparam_ok hvw (be16 a b)
      rw [hb2.mpr hok, hv] at hb1
      simp only [List.length_append, List.length_cons] at hl
      have hlen : (a :: b :: c :: d :: v ++ (rest ++ z)).length = v.length + rest.length + z.length + 4 := by simp; omega
      rw [hlen]
      simp only [pSvcparams]
      rw [if_pos (by omega), if_neg (by omega)]
      simp only [r0, r1, r2, r3, ok_bind]
      rw [Nat.mod_eq_of_lt (by omega), if_neg (by omega), hb1]
      simp only [ok_bind, Bool.true_eq_false, if_false]
      rw [pCopy_win hw (by rw [hlen]) (by simp; omega), ok_bind]
      exact ih _ hw.right (by simp; omega) _ _

/-- **C34 is violated by a whole class of records**: whatever the packet and the memory around it, the parser never returns from the rdata of an SVCB or HTTPS record
(class IN) that has a priority, a target name, any proper SvcParams, and then a SvcParam of length FF FC whose key is 0, 4, 5, or above 6 and not 65535; what follows it is irrelevant.  By `C34_terminates_partial`
a length field of 65532 or more is also necessary. -/
theorem C34_hang_class (mem : List UInt8) (p eop o rdlen ty e : Nat) (n : Name) (k0 k1 : UInt8) (ps w : List UInt8)
    (hm : eop ≤ mem.length) (h64 : eop < 2 ^ 64) (hp : p ≤ o) (hfit : o + rdlen ≤ eop) (hl : rdlen < 65536)
    (ht : ty = 64 ∨ ty = 65) (hd : Denotes (mem.take eop) p (o + 2) n) (hwf : WF n) (he : EncEnd (mem.take eop) (o + 2) e)
    (hpar : Params ps) (hx : ((mem.take eop).drop e).take (o + rdlen - e) = ps ++ k0 :: k1 :: 0xff :: 0xfc :: w)
    (hk : be16 k0 k1 ∈ [0, 4, 5] ∨ 6 < be16 k0 k1 ∧ be16 k0 k1 ≠ 65535) :
    parseRdata mem p eop o rdlen ty 1 = hang := by
  have hlt := encEnd_lt he
  have hxl := congrArg List.length hx
  simp only [List.length_take, List.length_drop, List.length_append, List.length_cons] at hxl
  have hkk : SvcLenOK (be16 k0 k1) 65532 ∧ be16 k0 k1 ≠ 1 := by
    rcases hk with hk | hk
    · simp only [List.mem_cons, List.not_mem_nil, or_false] at hk
      rcases hk with h | h | h <;> rw [h] <;> simp [SvcLenOK]
    · refine ⟨?_, by omega⟩
      unfold SvcLenOK
      split <;> first | omega | trivial
  have hdesc : recordDescr ty = some ⟨1, [.int16, .name, .svcparams]⟩ := by rcases ht with rfl | rfl <;> rfl
  have hw : Win mem e (ps ++ k0 :: k1 :: 0xff :: 0xfc :: w) := by
    rw [← hx, show ((mem.take eop).drop e).take (o + rdlen - e) = (mem.drop e).take (o + rdlen - e) from
      slice_congr (fun j _ _ => getElem?_take_lt (by omega))]
    exact Win.mk' (by omega)
  have hh := hang_later (w := w) hkk.1 hkk.2 hpar e hw (by rw [← hx]; simp; omega)
  rw [parseRdata_known hdesc (by decide)]
  have hf : ∀ out, pFields mem p eop [.name, .svcparams] ⟨o + 2, rdlen - 2, out⟩ = hang := by
    intro out
    simp only [pFields]
    rw [if_neg (by omega), pField_name (by trivial)]
    have hu := C02_unpack_complete maxlenName mem p eop (o + 2) n (by decide) (by omega) (by omega) hm hd hwf
    obtain ⟨e', he1, he2, he3⟩ := C08_skip_agrees mem p (o + 2) eop n h64 hd
    have := encEnd_functional he he1
    subst this
    simp only [hu, he3, ok_bind]
    rw [if_neg (by omega)]
    simp only [ok_bind]
    rw [if_neg (by omega)]
    have := hh (rdlen - 2 - (e - (o + 2)) + 1) (out ++ wire n)
    simp only [pField]
    rw [show (ps ++ k0 :: k1 :: 0xff :: 0xfc :: w).length = rdlen - 2 - (e - (o + 2)) by rw [← hx]; simp; omega] at this
    rw [List.take_length, this]; rfl
  have hh2 := Win.mk' (mem := mem) (o := o) (n := 2 + (rdlen - 2)) (by omega)
  have : pField mem p eop .int16 ⟨o, rdlen, []⟩ = ok ⟨o + 2, rdlen - 2, (mem.drop o).take 2⟩ := by
    simp only [pField, pCopy]
    rw [if_neg (by omega), rdN_ok (by omega)]
    simp
  rw [show pFields mem p eop [.int16, .name, .svcparams] ⟨o, rdlen, []⟩ = (pField mem p eop .int16 ⟨o, rdlen, []⟩ >>= fun st =>
    pFields mem p eop [.name, .svcparams] st) by simp only [pFields]; rw [if_neg (by omega)], this, ok_bind, hf]
  rfl

/-- `hangMsg` is such a packet. -/
example : parseRdata hangMsg 0 30 23 7 65 1 = hang :=
  C34_hang_class hangMsg 0 30 23 7 65 26 [] 0 5 [] [] (by decide) (by decide) (by decide) (by decide) (by decide) (.inr rfl)
    (.root (by decide)) (by decide) (.root (by decide)) .nil (by decide) (.inl (by decide))

/-! ## C35 -/

/-- **C35, partial.** If the octet behind the packet is readable and no SVCB/HTTPS record has a SvcParam with a length field of 65532 or more,
the parser reads nothing else, and what it does depends only on the packet and this octet.  Missing (and false, see
below): independence of the octet behind the packet, and packets with long SvcParams. -/
theorem C35_safe_partial (mem : List UInt8) (len : Nat) (hm : len < mem.length) (h64 : len < 2 ^ 64)
    (hno : SvcNoLong (mem.take len)) :
    (parseMessage mem len).Returns ∧
    ∀ mem' : List UInt8, mem'.take (len + 1) = mem.take (len + 1) → parseMessage mem' len = parseMessage mem len := by
  constructor
  · by_cases h12 : len < 12
    · unfold parseMessage; rw [if_pos h12]; simp
    have hc : CleanFrom (mem.take len) (headerSecs mem) 12 := by
      have := cleanFrom_of_svcNoLong hno
      simpa [headerSecs, u16At_take (show 4 + 1 < len by omega), u16At_take (show 6 + 1 < len by omega), u16At_take (show 8 + 1 < len by omega),
        u16At_take (show 10 + 1 < len by omega)] using this
    have := readAll_returns (mem := mem) (len := len) (by omega) h64 (fun sec o hn => parseMessageRr_returns hm h64 hn) _ _ hc
    rcases parseMessage_eq (mem := mem) (len := len) (by omega) with
      ⟨_, h⟩ | ⟨_, ⟨_, _, _, h, _⟩ | ⟨_, _, h⟩ | ⟨h', h⟩ | ⟨h', h⟩ | ⟨h', h⟩⟩
    · simp [h]
    · simp [h]
    · simp [h]
    all_goals (rw [h'] at this; simp at this)
  · intro mem' he
    have hg : ∀ i, i ≤ len → mem[i]? = mem'[i]? := by
      intro i hi
      have := congrArg (fun l => l[i]?) he
      simp only [List.getElem?_take_of_lt (show i < len + 1 by omega)] at this
      exact this.symm
    have hm' : len < mem'.length := by
      have := congrArg List.length he
      simp only [List.length_take] at this; omega
    have hl : ∀ sec o, (sec ≠ 0 → RecNoLong (mem.take len) o) → parseMessageRr sec mem 0 len o = parseMessageRr sec mem' 0 len o :=
      fun sec o hn => parseMessageRr_local hg hm hm' h64 hn
    unfold parseMessage
    split
    · rfl
    · rw [rdN_ok (mem := mem) (by omega), rdN_ok (mem := mem') (by omega)]
      have : (mem'.drop 0).take 12 = (mem.drop 0).take 12 := by
        simp only [List.drop_zero]
        have := congrArg (List.take 12) he
        simpa [List.take_take, Nat.min_eq_left (show 12 ≤ len + 1 by omega)] using this
      have h16 : ∀ i, i + 1 < 12 → u16At (mem.take len) i = u16At ((mem.drop 0).take 12) i := by
        intro i hi
        rw [u16At_take (by omega), List.drop_zero, u16At_take (by omega)]
      have hc := cleanFrom_of_svcNoLong hno
      rw [h16 4 (by omega), h16 6 (by omega), h16 8 (by omega), h16 10 (by omega)] at hc
      have hp := parseSections_local (by omega) h64 hl _ 12 ⟨.zero, u16At ((mem.drop 0).take 12) 2 % 16⟩ [] hc
      unfold u16At at hp
      simp only [ok_bind, this]
      rw [hp]

example : (parseMessage (sampleMsg ++ [7]) 46).Returns :=
  (C35_safe_partial (sampleMsg ++ [7]) 46 (by decide) (by decide)
    (by change SvcNoLong sampleMsg; exact sample_svc)).1

/-- A CNAME record whose target `01 61` lacks its last octet. -/
def overreadMsg : List UInt8 :=
  [0, 1, 0x80, 0, 0, 0, 0, 1, 0, 0, 0, 0, 0, 0, 5, 0, 1, 0, 0, 0, 0, 0, 2, 1, 97]

/-- **C35 is violated**: on this packet the parser reads the octet behind it, and accepts or rejects the packet
depending on its value. -/
theorem C35_safe_violated :
    parseMessage overreadMsg overreadMsg.length = ub ∧
    (∃ m, parseMessage (overreadMsg ++ [0]) overreadMsg.length = ok m) ∧
    parseMessage (overreadMsg ++ [1]) overreadMsg.length = err .outOfBounds := by
  refine ⟨by decide +kernel, ⟨⟨1, 0x8000, 0, .zero, [⟨[], []⟩,
    ⟨[⟨0, 5, 1, ⟨1, [0]⟩, some ⟨3, [1, 97, 0]⟩⟩], [⟨0, 5, 1, ⟨1, [0]⟩, [⟨3, [1, 97, 0]⟩]⟩]⟩, ⟨[], []⟩, ⟨[], []⟩]⟩,
    by decide +kernel⟩, by decide +kernel⟩

/-! ## C26 - C28 for parsed messages -/

theorem keyview (r : RR) : r.key = (r.view.2.1, r.view.2.2.1, r.view.2.2.2.1.map lower) := rfl

theorem filter_view {l l' : List RR} (h : l.map RR.view = l'.map RR.view) (k : Nat × Nat × List UInt8) :
    (l.filter fun r => r.key = k).map RR.view = (l'.filter fun r => r.key = k).map RR.view := by
  have : ∀ l : List RR, (l.filter fun r => r.key = k).map RR.view =
      (l.map RR.view).filter fun v => (v.2.1, v.2.2.1, v.2.2.2.1.map lower) = k := by
    intro l
    rw [List.filter_map]; rfl
  rw [this, this, h]

/-- **C26, C27 for messages.** In the answer, authority and additional sections of every parsed message: the types, classes and owner names (ignoring case)
of the RRsets are those of the RRs, each once, in the order of first appearance; the rdatas of an RRset are those of its RRs in their order; and its TTL is the least of theirs. -/
theorem C26_message_grouping (mem : List UInt8) (len : Nat) (m : Message) (hm : len ≤ mem.length)
    (h : parseMessage mem len = ok m) (i : Nat) (hi : i ≠ 0) (a : RRsetArray) (ha : m.sections[i]? = some a) :
    a.rrsets.map RRset.key = (a.rrs.map RR.key).eraseDups ∧ (a.rrsets.map RRset.key).Nodup ∧
    (∀ s ∈ a.rrsets, s.rdatas ≠ [] ∧
      s.rdatas.map CRdata.bytes = (a.rrs.filter fun r => r.key = s.key).filterMap fun r => r.rdata.map CRdata.bytes) ∧
    (∀ s ∈ a.rrsets, (∀ r ∈ a.rrs, r.key = s.key → s.rrttl ≤ r.rrttl) ∧
      ∃ r ∈ a.rrs, r.key = s.key ∧ s.rrttl = r.rrttl) := by
  obtain ⟨h12, all, h1, ⟨_, _, _, h4, h5⟩, _⟩ := parseMessage_ok hm h
  have hs := h5 i a ha
  rw [SectionIs, if_neg hi] at hs
  have hk : a.rrs.map RR.key = (sectionOf all i).map RR.key := by
    have := congrArg (List.map fun v => (v.2.1, v.2.2.1, v.2.2.2.1.map lower)) hs.rrs_eq
    rw [List.map_map, List.map_map] at this
    exact this
  refine ⟨by rw [hs.keys, hk], by rw [hs.keys]; exact eraseDups_nodup _, ?_, ?_⟩
  · intro s hs'
    constructor
    · rw [hs.rdatas s hs']
      have := hs.owner s hs'
      cases hf : (sectionOf all i).filter fun r => r.key = s.key with
      | nil => rw [hf] at this; simp at this
      | cons r rest =>
        have hr : r ∈ sectionOf all i := (List.mem_filter.mp (by rw [hf]; simp)).1
        obtain ⟨o, sz, hp⟩ := (readAll_valid (headerSecs_nodup mem) h1).1 _ ((sectionOf_sub all i).1 r hr)
        obtain ⟨d, hd, _⟩ := (parseMessageRr_valid hp).1.2 hi
        simp only at hd
        simp [hd]
    · have e : ∀ l : List RR, (l.filterMap fun r => r.rdata.map CRdata.bytes) =
          (l.map RR.view).filterMap fun v => v.2.2.2.2 := by
        intro l; rw [List.filterMap_map]; rfl
      rw [e, filter_view hs.rrs_eq, ← e, hs.rdatas s hs', List.map_filterMap]
  · intro s hs'
    constructor
    · intro r hr hkr
      obtain ⟨r', h6, h7⟩ := map_eq_mem hs.rrs_eq r hr
      have e : r.rrttl = r'.rrttl := congrArg Prod.fst h7
      rw [e]
      exact hs.ttl_le s hs' r' h6 (by rw [← hkr, keyview, keyview, h7])
    · obtain ⟨r, h6, h7, h8⟩ := hs.ttl_mem s hs'
      obtain ⟨r', h9, h10⟩ := map_eq_mem hs.rrs_eq.symm r h6
      exact ⟨r', h9, by rw [← h7, keyview, keyview, h10], by rw [h8]; exact congrArg Prod.fst h10⟩

/-- A case of `C26_message_grouping`: the answer section of the sample. -/
example : ∃ a, sampleParsed.sections[1]? = some a ∧ a.rrsets.map RRset.key = (a.rrs.map RR.key).eraseDups ∧ a.rrs ≠ [] :=
  ⟨_, rfl, (C26_message_grouping sampleMsg 46 sampleParsed (by decide) sample_parse 1 (by decide) _ rfl).1, by decide⟩

/-- **C28 for messages.** The question section of every parsed message has one RRset per RR, in order, without
rdata, and TTL 0. -/
theorem C28_message_questions (mem : List UInt8) (len : Nat) (m : Message) (hm : len ≤ mem.length)
    (h : parseMessage mem len = ok m) (a : RRsetArray) (ha : m.sections[0]? = some a) :
    a.rrsets.map RRset.view = a.rrs.map (fun r => (0, r.rrtype, r.rrclass, r.name.bytes, [])) ∧
    a.rrs.map RR.view = a.rrs.map (fun r => (0, r.rrtype, r.rrclass, r.name.bytes, none)) := by
  obtain ⟨h12, all, h1, ⟨_, _, _, h4, h5⟩, _⟩ := parseMessage_ok hm h
  have hs := h5 0 a ha
  rw [SectionIs, if_pos rfl] at hs
  have h0 : ∀ r ∈ sectionOf all 0, r.rrttl = 0 := by
    intro r hr
    obtain ⟨o, sz, hp⟩ := (readAll_valid (headerSecs_nodup mem) h1).1 _ ((sectionOf_sub all 0).1 r hr)
    exact ((parseMessageRr_valid hp).2.2.1 rfl).2
  have e : a.rrs.map RR.view = (sectionOf all 0).map (fun r => (0, r.rrtype, r.rrclass, r.name.bytes, none)) := by
    rw [hs.rrs_eq]
    apply List.map_congr_left
    intro r hr
    rw [h0 r hr]
  have e2 := congrArg (List.map fun v => (0, v.2.1, v.2.2.1, v.2.2.2.1, (none : Option (List UInt8)))) e
  have e3 := congrArg (List.map fun v => ((0 : Nat), v.2.1, v.2.2.1, v.2.2.2.1, ([] : List (List UInt8)))) e
  rw [List.map_map, List.map_map] at e2 e3
  constructor
  · rw [hs.rrsets_eq]
    refine Eq.trans ?_ e3.symm
    apply List.map_congr_left
    intro r hr
    simp [h0 r hr]
  · rw [e]; exact e2.symm

/-- A case of `C28_message_questions`: the question of the sample. -/
example : ∃ a, sampleParsed.sections[0]? = some a ∧ a.rrs ≠ [] ∧
    a.rrsets.map RRset.view = a.rrs.map (fun r => (0, r.rrtype, r.rrclass, r.name.bytes, [])) :=
  ⟨_, rfl, by decide, (C28_message_questions sampleMsg 46 sampleParsed (by decide) sample_parse _ rfl).1⟩

end Wdns
