import Verif.Props.ParsedTextSize
import Verif.Props.ParseRdata

/-!
# C107: the text of a parsed packet is linear in the packet

Property theorem: C107_message_text.
-/

namespace Wdns
open Outcome Spec

/-- The header values that `parseEdns` makes. -/
def HdrSmall (h : Hdr) : Prop := h.rcode < 65536 ∧ h.edns.version < 65536 ∧ h.edns.size < 65536 ∧
  ∀ o, h.edns.options = some o → o.data.length = o.len ∧ o.len < 65536

theorem parseMessageRr_opt {sec : Nat} {mem : List UInt8} {eop o sz : Nat} {rr : RR} (hm : eop ≤ mem.length) (h64 : eop < 2 ^ 64)
    (h : parseMessageRr sec mem 0 eop o = ok (rr, sz)) (h41 : rr.rrtype = 41) : ∀ d, rr.rdata = some d → d.data.length = d.len := by
  unfold parseMessageRr at h
  obtain ⟨⟨nm, len⟩, -, h⟩ := bind_eq_ok.mp h
  obtain ⟨⟨src, k⟩, -, h⟩ := bind_eq_ok.mp h
  dsimp only at h
  split at h
  · simp at h
  obtain ⟨t0, -, h⟩ := bind_eq_ok.mp h
  obtain ⟨t1, -, h⟩ := bind_eq_ok.mp h
  obtain ⟨c0, -, h⟩ := bind_eq_ok.mp h
  obtain ⟨c1, -, h⟩ := bind_eq_ok.mp h
  split at h
  · cases h; rintro d ⟨⟩
  obtain ⟨_, -, h⟩ := bind_eq_ok.mp h
  obtain ⟨_, -, h⟩ := bind_eq_ok.mp h
  obtain ⟨_, -, h⟩ := bind_eq_ok.mp h
  obtain ⟨_, -, h⟩ := bind_eq_ok.mp h
  obtain ⟨n0, -, h⟩ := bind_eq_ok.mp h
  obtain ⟨n1, -, h⟩ := bind_eq_ok.mp h
  split at h
  · simp at h
  rename_i hfit
  obtain ⟨r, hr, h⟩ := bind_eq_ok.mp h
  cases h
  rintro d ⟨⟩
  dsimp only at h41
  exact (C39_length_exact_partial mem 0 eop (src + 10) (be16 n0 n1) _ _ _ hm h64 (by omega) (by omega) (be16_lt _ _) (by omega)
    (.inl (by rw [h41]; decide)) hr).symm

theorem parseEdns_small {h : Hdr} {rr : RR} (hh : HdrSmall h) (hc : rr.rrclass < 65536)
    (hd : ∀ d, rr.rdata = some d → d.data.length = d.len ∧ d.len < 65536) : HdrSmall (parseEdns h rr) := by
  refine ⟨?_, ?_, hc, hd⟩
  · exact Nat.or_lt_two_pow (n := 16) hh.1 (by omega)
  · simp only [parseEdns]; omega

theorem parseSection_small {sec : Nat} {mem : List UInt8} {len : Nat} (hm : len ≤ mem.length) (h64 : len < 2 ^ 64) : ∀ n st st' b, HdrSmall st.hdr →
    parseSection sec mem len n st = ok (st', b) → HdrSmall st'.hdr := by
  intro n
  induction n with
  | zero => intro st st' b hp h; cases h; exact hp
  | succ n ih =>
    intro st st' b hp h
    rw [parseSection] at h
    split at h
    · cases h; exact hp
    · obtain ⟨⟨rr, sz⟩, hr, h⟩ := bind_eq_ok.mp h
      dsimp only at h
      split at h
      · rename_i ho
        refine ih _ _ _ (parseEdns_small hp (parseMessageRr_valid hr).2.2.2.2.2 fun d hd => ⟨?_, parseMessageRr_len hr d hd⟩) h
        exact parseMessageRr_opt hm h64 hr ho.1 d hd
      · obtain ⟨arr, -, h⟩ := bind_eq_ok.mp h
        exact ih _ _ _ (by simpa using hp) h

theorem parseSections_small {mem : List UInt8} {len : Nat} (hm : len ≤ mem.length) (h64 : len < 2 ^ 64) : ∀ secs p hdr done hdr' out, HdrSmall hdr →
    parseSections mem len secs p hdr done = ok (hdr', out) → HdrSmall hdr' := by
  intro secs
  induction secs with
  | nil => intro p hdr done hdr' out hp h; cases h; exact hp
  | cons sc rest ih =>
    intro p hdr done hdr' out hp h
    obtain ⟨sec, count⟩ := sc
    rw [parseSections] at h
    obtain ⟨⟨st, b⟩, hs, h⟩ := bind_eq_ok.mp h
    have hst := parseSection_small hm h64 _ _ _ _ (by exact hp) hs
    dsimp only at h
    split at h
    · cases h; exact hst
    · exact ih _ _ _ _ _ hst h

theorem strtok_size (sep : UInt8 → Bool) (pre : List UInt8) (t : List UInt8) : ∀ cur,
    ((strtok sep t cur).flatMap fun o => pre ++ o).length ≤ (pre.length + 1) * (cur.length + t.length) := by
  induction t with
  | nil =>
    intro cur
    rw [strtok]
    split
    · simp
    · rename_i hc
      have : 0 < cur.length := List.length_pos_iff.mpr hc
      simp only [List.flatMap_cons, List.flatMap_nil, List.append_nil, List.length_append, List.length_nil, Nat.add_zero]
      have := Nat.mul_le_mul_left pre.length this
      rw [Nat.add_mul]; omega
  | cons c t ih =>
    intro cur
    rw [strtok]
    split
    · split
      · have := ih []
        refine Nat.le_trans this (Nat.mul_le_mul_left _ ?_)
        simp only [List.length_cons, List.length_nil]; omega
      · rename_i hc
        have h0 : 0 < cur.length := List.length_pos_iff.mpr hc
        have := ih []
        rw [List.flatMap_cons, List.length_append, List.length_append]
        have h1 := Nat.mul_le_mul_left pre.length h0
        have h2 : (pre.length + 1) * (cur.length + (c :: t).length) = (pre.length + 1) * cur.length + (pre.length + 1) * (t.length + 1) := by
          rw [Nat.mul_add, List.length_cons]
        have h3 : (pre.length + 1) * (List.length ([] : List UInt8) + t.length) ≤ (pre.length + 1) * (t.length + 1) :=
          Nat.mul_le_mul_left _ (by simp)
        have h4 : (pre.length + 1) * cur.length = pre.length * cur.length + cur.length := by rw [Nat.add_mul]; omega
        omega
    · have := ih (cur ++ [c])
      refine Nat.le_trans this (Nat.mul_le_mul_left _ ?_)
      simp only [List.length_cons, List.length_append, List.length_nil]; omega

theorem msgEdns_size {e : Edns} {rc : Nat} (h : HdrSmall ⟨e, rc⟩) : (msgEdns e).Ens fun t =>
    t.length ≤ 352 * ((e.options.map fun d => d.data.length).getD 0) + 220 := by
  obtain ⟨-, h1, h2, h3⟩ := h
  have d1 := dec5 h1
  have d2 := dec5 h2
  unfold msgEdns
  have hd : (ascii "\n;; OPT PSEUDOSECTION:" ++ ascii "\n; EDNS: version: " ++ fmtU e.version ++ ascii ", flags:" ++
      (if e.flags &&& 0x8000 ≠ 0 then ascii " do" else []) ++ ascii "; udp: " ++ fmtU e.size).length ≤ 100 := by
    have l1 : (ascii "\n;; OPT PSEUDOSECTION:").length = 22 := rfl
    have l2 : (ascii "\n; EDNS: version: ").length = 18 := rfl
    have l3 : (ascii ", flags:").length = 8 := rfl
    have l4 : (ascii "; udp: ").length = 7 := rfl
    have l5 : (if e.flags &&& 0x8000 ≠ 0 then ascii " do" else []).length ≤ 3 := by
      split
      · exact Nat.le_refl _
      · simp
    simp only [List.length_append, l1, l2, l3, l4, fmtU_eq]
    dsimp only at d1 d2
    omega
  refine .ite (fun _ => ?_) fun _ => .ok (by simp)
  dsimp only
  generalize (ascii "\n;; OPT PSEUDOSECTION:" ++ ascii "\n; EDNS: version: " ++ fmtU e.version ++ ascii ", flags:" ++
      (if e.flags &&& 0x8000 ≠ 0 then ascii " do" else []) ++ ascii "; udp: " ++ fmtU e.size) = head at hd ⊢
  split
  · exact .ok (by omega)
  · rename_i o ho
    obtain ⟨b1, b2⟩ := h3 o ho
    have := rdataToUbuf_size [] o.data (by omega) 41 0
    rw [b1] at this
    refine .bind this fun t ht => .ok ?_
    have hs := strtok_size (· = 10) (ascii "\n; ") (cstrOf t) []
    have hp : (ascii "\n; ").length = 3 := rfl
    have hc : (cstrOf t).length ≤ t.length := (List.takeWhile_sublist _).length_le
    rw [List.length_nil] at ht hs
    rw [hp] at hs
    rw [List.length_append, ho]
    simp only [Option.map_some, Option.getD_some]
    omega

theorem switchOf_length {l : List (Nat × List UInt8)} {k n : Nat} (hl : ∀ c ∈ l, c.2.length ≤ k) {s : List UInt8} (h : switchOf l n = some s) : s.length ≤ k := by
  unfold switchOf at h
  obtain ⟨c, hc, rfl⟩ := Option.map_eq_some_iff.mp h
  exact hl c (List.mem_of_find?_eq_some hc)

theorem msgHeader_size (m : Message) (h1 : m.rcode < 65536) (h2 : m.id < 65536)
    (h3 : ∀ (i : Nat) (a : RRsetArray), m.sections[i]? = some a → a.rrs.length < 2 ^ 64) : (msgHeader m).length ≤ 290 := by
  have hop : (opcodeTok m.opcode).length ≤ 8 := by
    unfold opcodeTok
    split
    · rename_i s hs
      exact switchOf_length (by decide) hs
    · have h : m.opcode ≤ 15 := Nat.and_le_right
      rw [fmtU_eq]
      have := dec5 (n := m.opcode) (by omega)
      omega
  have hrc : (rcodeTok m.rcode).length ≤ 8 := by
    unfold rcodeTok
    split
    · rename_i s hs
      exact switchOf_length (l := rcodeCases) (by decide) hs
    · rw [fmtU_eq]
      have := dec5 h1
      omega
  have hid := dec5 h2
  have hn : ∀ i : Nat, (fmtU ((m.sections[i]?).elim 0 fun a => a.rrs.length)).length ≤ 20 := by
    intro i
    rw [fmtU_eq]
    refine decText_length (by omega) ?_
    cases e : m.sections[i]? with
    | none => simp
    | some a =>
      have := h3 i a e
      rw [Option.elim_some]; omega
  have hf : ∀ (b : Nat) (s : String), (if b ≠ 0 then ascii s else []).length ≤ (ascii s).length := by
    intro b s; split
    · exact Nat.le_refl _
    · simp
  unfold msgHeader
  have g1 := hf m.qr " qr"; have g2 := hf m.aa " aa"; have g3 := hf m.tc " tc"; have g4 := hf m.rd " rd"
  have g5 := hf m.ra " ra"; have g6 := hf m.ad " ad"; have g7 := hf m.cd " cd"
  have k1 : (ascii " qr").length = 3 := rfl
  have k2 : (ascii " aa").length = 3 := rfl
  have k3 : (ascii " tc").length = 3 := rfl
  have k4 : (ascii " rd").length = 3 := rfl
  have k5 : (ascii " ra").length = 3 := rfl
  have k6 : (ascii " ad").length = 3 := rfl
  have k7 : (ascii " cd").length = 3 := rfl
  have c1 : (ascii ";; ->>HEADER<<- ").length = 16 := rfl
  have c2 : (ascii "opcode: ").length = 8 := rfl
  have c3 : (ascii ", rcode: ").length = 9 := rfl
  have c4 : (ascii ", id: ").length = 6 := rfl
  have c5 : (ascii ";; flags:").length = 9 := rfl
  have c6 : (ascii "; QUERY: ").length = 9 := rfl
  have c7 : (ascii ", ANSWER: ").length = 10 := rfl
  have c8 : (ascii ", AUTHORITY: ").length = 13 := rfl
  have c9 : (ascii ", ADDITIONAL: ").length = 14 := rfl
  have n0 := hn 0; have n1 := hn 1; have n2 := hn 2; have n3 := hn 3
  have hid' : (fmtU m.id).length ≤ 5 := by rw [fmtU_eq]; exact hid
  simp only [List.length_append, List.length_singleton, c1, c2, c3, c4, c5, c6, c7, c8, c9]
  omega

theorem sum_four {α : Type} (f : α → Nat) (l : List α) (g : Option α → Nat) (hg : g none = 0) (hs : ∀ a, g (some a) = f a) :
    g l[0]? + g l[1]? + g l[2]? + g l[3]? ≤ (l.map f).sum := by
  match l with
  | [] => simp [hg]
  | [a] => simp [hg, hs]
  | [a, b] => simp [hg, hs]
  | [a, b, c] => simp [hg, hs]; omega
  | a :: b :: c :: d :: l => simp [hs]; omega

/-- **C107.** The text of a parsed packet of n octets has at most 34012 · (n - 11) + 1000 characters, whatever its pointers and counts. -/
theorem C107_message_text (mem : List UInt8) (len : Nat) (m : Message) (hm : len ≤ mem.length) (h64 : len < 2 ^ 64) (h : parseMessage mem len = ok m)
    (s : List UInt8) (hs : messageToStr m = ok s) : s.length ≤ 34012 * (len - 11) + 1000 := by
  have hc := parseMessage_compact h
  have p1 := C107_stored mem len m h64 h
  have p2 := C107_records mem len m h64 h
  have hsmall : HdrSmall ⟨m.edns, m.rcode⟩ ∧ m.id < 65536 := by
    unfold parseMessage at h
    split at h
    · simp at h
    obtain ⟨hh, _, h⟩ := bind_eq_ok.mp h
    obtain ⟨⟨hdr, secs⟩, hp, h⟩ := bind_eq_ok.mp h
    simp only [ok.injEq] at h
    subst h
    refine ⟨parseSections_small hm h64 _ _ _ _ _ _ ⟨?_, (by decide : 0 < 65536), (by decide : 0 < 65536), by rintro o ⟨⟩⟩ hp, be16_lt _ _⟩
    dsimp only; omega
  obtain ⟨hsm, hid⟩ := hsmall
  have hcount : ∀ a ∈ m.sections, a.rrs.length < 2 ^ 64 := by
    intro a ha
    have := le_sum_map (fun a : RRsetArray => a.rrs.length) m.sections a ha
    unfold messageRecords at p2
    omega
  have hhead := msgHeader_size m hsm.1 hid fun i a ha => hcount a (List.mem_of_getElem? ha)
  have hsec : ∀ i : Nat, ∀ r ∈ (m.sections[i]?).elim [] fun a => a.rrs, Compact r := by
    intro i r hr
    cases e : m.sections[i]? with
    | none => rw [e] at hr; cases hr
    | some a => rw [e] at hr; exact hc a (List.mem_of_getElem? e) r hr
  unfold messageToStr at hs
  dsimp only at hs
  obtain ⟨e, he, hs⟩ := bind_eq_ok.mp hs
  obtain ⟨u0, h0, hs⟩ := bind_eq_ok.mp hs
  obtain ⟨u1, h1, hs⟩ := bind_eq_ok.mp hs
  obtain ⟨u2, h2, hs⟩ := bind_eq_ok.mp hs
  obtain ⟨u3, h3, hs⟩ := bind_eq_ok.mp hs
  cases hs
  have he := msgEdns_size hsm e he
  have s0 := rrsToUbuf_size 0 _ (hsec 0) _ _ h0
  have s1 := rrsToUbuf_size 1 _ (hsec 1) _ _ h1
  have s2 := rrsToUbuf_size 2 _ (hsec 2) _ _ h2
  have s3 := rrsToUbuf_size 3 _ (hsec 3) _ _ h3
  have q0 := rdataOctets_sum _ (hsec 0)
  have q1 := rdataOctets_sum _ (hsec 1)
  have q2 := rdataOctets_sum _ (hsec 2)
  have q3 := rdataOctets_sum _ (hsec 3)
  have t1 : (ascii "\n;; QUESTION SECTION:\n").length = 22 := rfl
  have t2 : (ascii "\n;; ANSWER SECTION:\n").length = 20 := rfl
  have t3 : (ascii "\n;; AUTHORITY SECTION:\n").length = 23 := rfl
  have t4 : (ascii "\n;; ADDITIONAL SECTION:\n").length = 24 := rfl
  rw [List.length_append, List.length_append, t1] at s0
  rw [List.length_append, t2] at s1
  rw [List.length_append, t3] at s2
  rw [List.length_append, t4] at s3
  have a1 := sum_four (fun a : RRsetArray => (a.rrs.map rrOctets).sum) m.sections
    (fun o => ((o.elim [] fun a => a.rrs).map rrOctets).sum) rfl fun a => rfl
  have a2 := sum_four (fun a : RRsetArray => a.rrs.length) m.sections (fun o => (o.elim [] fun a => a.rrs).length) rfl fun a => rfl
  have a3 : ∀ l : List RRsetArray, (l.map fun a => (a.rrs.map rrOctets).sum).sum ≤ (l.map arrayOctets).sum := by
    intro l
    induction l with
    | nil => simp
    | cons a l ih =>
      rw [List.map_cons, List.sum_cons, List.map_cons, List.sum_cons]
      have : (a.rrs.map rrOctets).sum ≤ arrayOctets a := by unfold arrayOctets; omega
      omega
  have a3 := a3 m.sections
  have hl : (cstrOf u3).length ≤ u3.length := (List.takeWhile_sublist _).length_le
  unfold messageOctets at p1
  unfold messageRecords at p2
  have hlen : 12 ≤ len := by
    unfold parseMessage at h
    split at h
    · simp at h
    · omega
  omega

example : (match parseMessage sampleMsg 46 with
    | ok m => (match messageToStr m with | ok s => decide (s.length > 100) | _ => false)
    | _ => false) = true := by decide +kernel

end Wdns
