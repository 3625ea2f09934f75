import Verif.Props.TextSize
import Verif.Props.Resources

/-!
# C107: the text of a section of a parsed packet is linear in the packet

Property theorem: C107_parsed_section_text (the whole message: Props/MessageTextSize.lean).
-/

namespace Wdns
open Outcome Spec

theorem copyRR_compact {rr r : RR} {sec : Nat} (h : copyRR rr sec = ok r) (h1 : rr.rrtype < 65536) (h2 : rr.rrclass < 65536) (h3 : rr.rrttl < 2 ^ 32)
    (h4 : ∀ d, rr.rdata = some d → d.len < 65536) : Compact r := by
  unfold copyRR at h
  obtain ⟨nm, hnm, h⟩ := bind_eq_ok.mp h
  split at h
  · split at h
    · simp at h
    · rename_i d hd
      obtain ⟨b, hb, h⟩ := bind_eq_ok.mp h
      have hb := (rdN_ens _ _ _ b hb).1
      simp only [ok_bind, ok.injEq] at h
      subst h
      refine ⟨h1, h2, h3, ?_⟩
      rintro rd ⟨⟩
      exact ⟨hb, h4 d hd⟩
  · simp only [ok_bind, ok.injEq] at h
    subst h
    exact ⟨h1, h2, h3, by rintro rd ⟨⟩⟩

theorem insertRr_rrs {a a' : RRsetArray} {rr : RR} {sec : Nat} (h : insertRr a rr sec = ok a') :
    ∃ r, copyRR rr sec = ok r ∧ a'.rrs = a.rrs ++ [r] := by
  unfold insertRr at h
  split at h
  · simp at h
  obtain ⟨r, hr, h⟩ := bind_eq_ok.mp h
  refine ⟨r, hr, ?_⟩
  have key : ∀ found : Option (List RRset),
      (match found with
        | some rs => ok ⟨a.rrs ++ [r], rs.reverse⟩
        | none => if a.rrsets.length + 1 ≥ 65536 then abort
          else ok ⟨a.rrs ++ [r], a.rrsets ++ [⟨rr.rrttl, rr.rrtype, rr.rrclass, rr.name, if sec ≠ 0 then rr.rdata.toList else []⟩]⟩ : Outcome RRsetArray) = ok a' →
      a'.rrs = a.rrs ++ [r] := by
    intro found h
    cases found with
    | none =>
      dsimp only at h
      split at h
      · simp at h
      · cases h; rfl
    | some rs => cases h; rfl
  by_cases hs : sec = 0
  · simp only [if_pos hs, ok_bind] at h
    exact key none h
  · simp only [if_neg hs] at h
    obtain ⟨found, -, h⟩ := bind_eq_ok.mp h
    cases found with
    | none => exact key none (by simpa only [if_pos, ne_eq, hs, not_false_eq_true] using h)
    | some rs => exact key (some rs) h

theorem parseMessageRr_len {sec : Nat} {mem : List UInt8} {p eop o sz : Nat} {rr : RR} (h : parseMessageRr sec mem p eop o = ok (rr, sz)) :
    ∀ d, rr.rdata = some d → d.len < 65536 := by
  unfold parseMessageRr at h
  obtain ⟨⟨nm, len⟩, -, h⟩ := bind_eq_ok.mp h
  obtain ⟨⟨src, k⟩, -, h⟩ := bind_eq_ok.mp h
  dsimp only at h
  split at h
  · simp at h
  obtain ⟨t0, -, h⟩ := bind_eq_ok.mp h
  obtain ⟨t1, -, h⟩ := bind_eq_ok.mp h
  obtain ⟨c0, -, h⟩ := bind_eq_ok.mp h
  obtain ⟨c1, -, h⟩ := bind_eq_ok.mp h
  split at h
  · cases h; rintro d ⟨⟩
  obtain ⟨_, -, h⟩ := bind_eq_ok.mp h
  obtain ⟨_, -, h⟩ := bind_eq_ok.mp h
  obtain ⟨_, -, h⟩ := bind_eq_ok.mp h
  obtain ⟨_, -, h⟩ := bind_eq_ok.mp h
  obtain ⟨_, -, h⟩ := bind_eq_ok.mp h
  obtain ⟨_, -, h⟩ := bind_eq_ok.mp h
  split at h
  · simp at h
  obtain ⟨r, hr, h⟩ := bind_eq_ok.mp h
  cases h
  rintro d ⟨⟩
  exact parseRdata_len hr

theorem parseSection_compact {sec : Nat} {mem : List UInt8} {len : Nat} : ∀ n st st' b, (∀ r ∈ st.arr.rrs, Compact r) →
    parseSection sec mem len n st = ok (st', b) → ∀ r ∈ st'.arr.rrs, Compact r := by
  intro n
  induction n with
  | zero => intro st st' b hp h; cases h; exact hp
  | succ n ih =>
    intro st st' b hp h
    rw [parseSection] at h
    split at h
    · cases h; exact hp
    · obtain ⟨⟨rr, sz⟩, hr, h⟩ := bind_eq_ok.mp h
      dsimp only at h
      split at h
      · exact ih _ _ _ (by simpa using hp) h
      · obtain ⟨arr, ha, h⟩ := bind_eq_ok.mp h
        obtain ⟨r, hc, e⟩ := insertRr_rrs ha
        refine ih _ _ _ ?_ h
        have v := parseMessageRr_valid hr
        dsimp only
        rw [e]
        intro x hx
        rcases List.mem_append.mp hx with hx | hx
        · exact hp x hx
        · rw [List.mem_singleton.mp hx]
          exact copyRR_compact hc v.2.2.2.2.1 v.2.2.2.2.2 v.2.2.2.1 (parseMessageRr_len hr)

theorem parseSections_compact {mem : List UInt8} {len : Nat} : ∀ secs p hdr done hdr' out, (∀ a ∈ done, ∀ r ∈ a.rrs, Compact r) →
    parseSections mem len secs p hdr done = ok (hdr', out) → ∀ a ∈ out, ∀ r ∈ a.rrs, Compact r := by
  intro secs
  induction secs with
  | nil => intro p hdr done hdr' out hp h; cases h; exact hp
  | cons sc rest ih =>
    intro p hdr done hdr' out hp h
    obtain ⟨sec, count⟩ := sc
    rw [parseSections] at h
    obtain ⟨⟨st, b⟩, hs, h⟩ := bind_eq_ok.mp h
    have hst := parseSection_compact _ _ _ _ (by intro r hr; cases hr) hs
    have hdone : ∀ a ∈ done ++ [st.arr], ∀ r ∈ a.rrs, Compact r := by
      intro a ha
      rcases List.mem_append.mp ha with ha | ha
      · exact hp a ha
      · rw [List.mem_singleton.mp ha]; exact hst
    dsimp only at h
    split at h
    · cases h
      intro a ha
      rcases List.mem_append.mp ha with ha | ha
      · exact hdone a ha
      · obtain ⟨_, -, rfl⟩ := List.mem_map.mp ha
        intro r hr; cases hr
    · exact ih _ _ _ _ _ hdone h

theorem parseMessage_compact {mem : List UInt8} {len : Nat} {m : Message} (h : parseMessage mem len = ok m) : ∀ a ∈ m.sections, ∀ r ∈ a.rrs, Compact r := by
  unfold parseMessage at h
  split at h
  · simp at h
  obtain ⟨hh, _, h⟩ := bind_eq_ok.mp h
  obtain ⟨⟨hdr, secs⟩, hs, h⟩ := bind_eq_ok.mp h
  simp only [ok.injEq] at h
  subst h
  exact parseSections_compact _ _ _ _ _ _ (by intro a ha; cases ha) hs

theorem le_sum_map {α : Type} (f : α → Nat) (l : List α) (a : α) (h : a ∈ l) : f a ≤ (l.map f).sum := by
  induction l with
  | nil => cases h
  | cons b l ih =>
    rw [List.map_cons, List.sum_cons]
    rcases List.mem_cons.mp h with rfl | h
    · omega
    · have := ih h; omega

theorem rdataOctets_sum (l : List RR) (h : ∀ r ∈ l, Compact r) : (l.map rdataOctets).sum ≤ (l.map rrOctets).sum := by
  induction l with
  | nil => simp
  | cons r l ih =>
    have := ih fun r hr => h r (by simp [hr])
    have h4 := (h r (by simp)).2.2.2
    rw [List.map_cons, List.sum_cons, List.map_cons, List.sum_cons]
    have : rdataOctets r ≤ rrOctets r := by
      unfold rdataOctets rrOctets
      split
      · omega
      · rename_i d hd
        rw [hd]
        have := (h4 d hd).1
        simp only [Option.map_some, Option.getD_some]; omega
    omega

/-- **C107.** The text of a section of a parsed packet has at most 8668 characters for each octet of the packet behind the header, and 8448 more: no packet,
whatever its pointers, is written as more text than that. -/
theorem C107_parsed_section_text (mem : List UInt8) (len : Nat) (m : Message) (h64 : len < 2 ^ 64) (h : parseMessage mem len = ok m) (a : RRsetArray)
    (ha : a ∈ m.sections) (sec : Nat) (s : List UInt8) (hs : rrsetArrayToStr a sec = ok s) : s.length ≤ 8668 * (len - 12) + 8448 := by
  have hc := parseMessage_compact h a ha
  have h1 := C107_section_text a sec s hc hs
  have h2 := C107_stored mem len m h64 h
  have h3 := C107_records mem len m h64 h
  have h4 := rdataOctets_sum a.rrs hc
  have h5 := le_sum_map arrayOctets m.sections a ha
  have h6 := le_sum_map (fun a : RRsetArray => a.rrs.length) m.sections a ha
  have h7 : 12 ≤ len := by
    unfold parseMessage at h
    split at h
    · simp at h
    · omega
  unfold messageOctets at h2
  unfold messageRecords at h3
  have h8 : (a.rrs.map rrOctets).sum ≤ arrayOctets a := by unfold arrayOctets; omega
  omega

/-- A packet of 46 octets with a section that is parsed and written. -/
example : ∃ m, parseMessage sampleMsg 46 = ok m ∧ ∃ a ∈ m.sections, ∃ s, rrsetArrayToStr a 1 = ok s ∧ s ≠ [] := by
  have h : (match parseMessage sampleMsg 46 with
    | ok m => (match m.sections[1]? with
      | some a => (match rrsetArrayToStr a 1 with | ok s => decide (s ≠ []) | _ => false)
      | none => false)
    | _ => false) = true := by decide +kernel
  split at h
  · rename_i m hm
    refine ⟨m, hm, ?_⟩
    split at h
    · rename_i a ha
      refine ⟨a, List.mem_of_getElem? ha, ?_⟩
      split at h
      · rename_i s hs; exact ⟨s, hs, of_decide_eq_true h⟩
      · simp at h
    · simp at h
  · simp at h

end Wdns
