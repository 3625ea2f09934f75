import Verif.Lemmas.RRText

/-!
# Properties C62, C64: records, RRsets and messages as text
-/

namespace Wdns
open Outcome Spec

/-! ## Splitting the option text into lines -/

theorem strtok_nl_line {l s : List UInt8} (hl : ∀ b ∈ l, b ≠ 10) : ∀ cur : List UInt8, cur ++ l ≠ [] →
    strtok (· = 10) (l ++ 10 :: s) cur = (cur ++ l) :: strtok (· = 10) s [] := by
  induction l with
  | nil => intro cur hc; simp at hc; simp [strtok, hc]
  | cons c l ih =>
    intro cur hc
    have h1 : ¬ (c = 10) := hl c (by simp)
    rw [List.cons_append, strtok]
    simp only [h1, decide_false, Bool.false_eq_true, if_false]
    rw [ih (fun b hb => hl b (by simp [hb])) _ (by simp)]
    simp

theorem strtok_nl_last {l : List UInt8} (hl : ∀ b ∈ l, b ≠ 10) : ∀ cur : List UInt8, cur ++ l ≠ [] →
    strtok (· = 10) l cur = [cur ++ l] := by
  induction l with
  | nil => intro cur hc; simp at hc; simp [strtok, hc]
  | cons c l ih =>
    intro cur hc
    have h1 : ¬ (c = 10) := hl c (by simp)
    rw [strtok]
    simp only [h1, decide_false, Bool.false_eq_true, if_false]
    rw [ih (fun b hb => hl b (by simp [hb])) _ (by simp)]
    simp

theorem flatMap_no_nl {l : List UInt8} (hl : ∀ b ∈ l, b ≠ 10) :
    (l.flatMap fun c => if c = 10 then ascii "\n; " else [c]) = l := by
  induction l with
  | nil => rfl
  | cons c l ih =>
    rw [List.flatMap_cons, if_neg (hl c (by simp)), ih fun b hb => hl b (by simp [hb])]
    rfl

theorem printable_no_nl {l : List UInt8} (h : Printable l) : ∀ b ∈ l, b ≠ 10 := by
  rintro b hb rfl
  have := (h 10 hb).1
  simp at this

theorem optLabel_ne (code : Nat) : optLabel code ≠ [] := by
  unfold optLabel
  split
  · decide
  · split
    · decide
    · simp [ascii]

/-- Every line of the option text goes to a line of its own that starts with `; `. -/
theorem strtok_opts {w s : List UInt8} (h : OptsText w s) :
    ((strtok (· = 10) s []).flatMap fun opt => ascii "\n; " ++ opt) =
      ascii "\n; " ++ s.flatMap fun c => if c = 10 then ascii "\n; " else [c] := by
  have one : ∀ l : List UInt8, Printable l → l ≠ [] → ((strtok (· = 10) l []).flatMap fun opt => ascii "\n; " ++ opt) =
      ascii "\n; " ++ l.flatMap fun c => if c = 10 then ascii "\n; " else [c] := by
    intro l hl hne
    rw [strtok_nl_last (printable_no_nl hl) [] (by simpa using hne), flatMap_no_nl (printable_no_nl hl)]
    simp
  induction h with
  | last _ _ h =>
    exact one _ (((printable_optLabel _).append (by decide)).append (printable_optText h).1) (by simp)
  | @more code data t rest s _ _ h _ _ ih =>
    have hp : Printable (optLabel code ++ [32] ++ t) := ((printable_optLabel _).append (by decide)).append (printable_optText h).1
    rw [List.append_assoc (optLabel code ++ [32] ++ t), List.singleton_append,
      strtok_nl_line (printable_no_nl hp) [] (by simp), List.flatMap_cons, ih, List.flatMap_append, List.flatMap_cons,
      flatMap_no_nl (printable_no_nl hp)]
    simp
  | one => exact one _ (by decide) (by decide)
  | short => exact one _ ((printable_optLabel _).append (by decide)) (by simp [optLabel_ne])
  | cut => exact one _ ((printable_optLabel _).append (by decide)) (by simp [optLabel_ne])
  | bad => exact one _ ((printable_optLabel _).append (by decide)) (by simp [optLabel_ne])

theorem flag_do (n : Nat) : (n &&& 0x8000 ≠ 0) ↔ n / 32768 % 2 = 1 := by
  have h : (n &&& 2 ^ 15 = 0) ↔ n.testBit 15 = false := by
    constructor
    · intro h
      have := congrArg (fun x => Nat.testBit x 15) h
      simp only [Nat.testBit_and, Nat.testBit_two_pow, decide_true, Bool.and_true, Nat.zero_testBit] at this
      exact this
    · intro h
      apply Nat.eq_of_testBit_eq
      intro i
      rw [Nat.testBit_and, Nat.testBit_two_pow, Nat.zero_testBit]
      by_cases hi : 15 = i
      · subst hi; simp [h]
      · simp [hi]
  rw [Nat.testBit_eq_decide_div_mod_eq] at h
  simp only [decide_eq_false_iff_not, Nat.reducePow] at h
  rw [ne_eq, h, Decidable.not_not]

theorem nz_opts {w s : List UInt8} (h : OptsText w s) : NZ (s.flatMap fun c => if c = 10 then ascii "\n; " else [c]) := by
  intro b hb
  rw [List.mem_flatMap] at hb
  obtain ⟨c, hc, hb⟩ := hb
  split at hb
  · exact (by decide : ∀ b ∈ ascii "\n; ", b ≠ 0) b hb
  · simp only [List.mem_singleton] at hb
    subst hb
    exact optsText_nonzero h _ hc

theorem msgEdns_render (e : Edns) (ho : ∀ o, e.options = some o → o.len = o.data.length) :
    ∃ t, EdnsLines e t ∧ NZ t ∧ msgEdns e = ok t := by
  unfold EdnsLines msgEdns
  by_cases hp : e.present = false
  · simp only [hp, if_true, Bool.false_eq_true, if_false]
    exact ⟨[], rfl, by decide, rfl⟩
  · have hp' : e.present = true := by simpa using hp
    simp only [hp', Bool.true_eq_false, if_false, if_true, fmtU_eq]
    have hdo : (if e.flags &&& 0x8000 ≠ 0 then ascii " do" else []) = (if e.flags / 32768 % 2 = 1 then ascii " do" else []) := by
      by_cases h : e.flags / 32768 % 2 = 1
      · rw [if_pos h, if_pos ((flag_do _).mpr h)]
      · rw [if_neg h, if_neg (fun h' => h ((flag_do _).mp h'))]
    rw [hdo]
    have hhead : ascii "\n;; OPT PSEUDOSECTION:" ++ ascii "\n; EDNS: version: " =
      ascii "\n;; OPT PSEUDOSECTION:\n; EDNS: version: " := by decide
    rw [hhead]
    generalize hh : (ascii "\n;; OPT PSEUDOSECTION:\n; EDNS: version: " ++ decText e.version ++ ascii ", flags:" ++
      (if e.flags / 32768 % 2 = 1 then ascii " do" else []) ++ ascii "; udp: " ++ decText e.size) = head
    have hnz : NZ head := by
      rw [← hh]
      refine NZ.append (NZ.append (NZ.append (NZ.append (NZ.append (by decide) (NZ.of (printable_decText _))) (by decide)) ?_)
        (by decide)) (NZ.of (printable_decText _))
      split <;> decide
    cases he : e.options with
    | none => exact ⟨head, rfl, hnz, rfl⟩
    | some o =>
      simp only
      have hb : o.bytes = o.data := by simp [CRdata.bytes, ho o he]
      rw [hb, ho o he]
      by_cases hw : o.data = []
      · refine ⟨head, Or.inl ⟨hw, rfl⟩, hnz, ?_⟩
        have := C61_no_options o.data 0
        unfold rdataToStr at this
        obtain ⟨u, h1, h2⟩ := bind_eq_ok.mp this
        rw [hw, List.length_nil]
        rw [hw] at h1
        rw [h1, ok_bind]
        simp only [ok.injEq] at h2
        rw [h2]
        simp [strtok]
      · obtain ⟨s, h1, h2⟩ := rdataToUbuf_opt (u := []) (extra := []) (cls := 0) Clean.nil hw
        rw [List.append_nil] at h2
        rw [h2, ok_bind, List.nil_append, cstrOf_of (optsText_nonzero h1), strtok_opts h1]
        exact ⟨_, Or.inr ⟨s, h1, rfl⟩, by
          rw [List.append_assoc]; exact hnz.append (NZ.append (by decide) (nz_opts h1)), by rw [List.append_assoc]⟩

theorem opcodeText_eq (n : Nat) : opcodeTok n = opcodeText n := by
  unfold opcodeTok
  by_cases hn : n < 6
  · have : ∀ n < 6, (match opcodeToStr n with | some s => s | none => fmtU n) = opcodeText n := by decide +kernel
    exact this n hn
  · have : opcodeToStr n = none := by
      unfold opcodeToStr switchOf
      rw [Option.map_eq_none_iff, List.find?_eq_none]
      intro x hx
      have hlt : ∀ x ∈ [(0, ascii "QUERY"), (1, ascii "IQUERY"), (2, ascii "STATUS"), (4, ascii "NOTIFY"), (5, ascii "UPDATE")],
        x.1 < 6 := by decide
      have := hlt x hx
      simp only [decide_eq_true_eq]
      omega
    rw [this, fmtU_eq]
    obtain ⟨k, rfl⟩ : ∃ k, n = k + 6 := ⟨n - 6, by omega⟩
    rfl

theorem rcodeTok_eq (n : Nat) : rcodeTok n = (rcodeToStr n).getD (decText n) := by
  unfold rcodeTok
  cases rcodeToStr n with
  | none => simp [fmtU_eq]
  | some s => rfl

theorem ascii_nl : ascii "\n" = [10] := by decide
theorem ascii_flags : [10] ++ ascii ";; flags:" = ascii "\n;; flags:" := by decide
theorem ascii_header : ascii ";; ->>HEADER<<- " ++ ascii "opcode: " = ascii ";; ->>HEADER<<- opcode: " := by decide

theorem printable_opcodeText (n : Nat) : Printable (opcodeText n) := by
  unfold opcodeText
  split <;> first | decide | exact printable_decText _

theorem msgHeader_eq (m : Message) {s0 s1 s2 s3 : RRsetArray} (h : m.sections = [s0, s1, s2, s3]) :
    msgHeader m = headerText m s0.rrs.length s1.rrs.length s2.rrs.length s3.rrs.length ∧ NZ (msgHeader m) := by
  have m1 : ∀ x : Nat, x &&& 1 = x % 2 := fun x => Nat.and_two_pow_sub_one_eq_mod x 1
  have m15 : ∀ x : Nat, x &&& 15 = x % 16 := fun x => Nat.and_two_pow_sub_one_eq_mod x 4
  have hf : ∀ (b : Nat) (s : String), (if b % 2 ≠ 0 then ascii s else []) = (if b % 2 = 1 then ascii s else []) := by
    intro b s
    by_cases h : b % 2 = 1
    · rw [if_pos h, if_pos (by omega)]
    · rw [if_neg h, if_neg (by omega)]
  have e : msgHeader m = headerText m s0.rrs.length s1.rrs.length s2.rrs.length s3.rrs.length := by
    unfold msgHeader headerText
    simp only [h, rcodeTok_eq, opcodeText_eq, fmtU_eq, Message.opcode, Message.qr, Message.aa, Message.tc, Message.rd,
      Message.ra, Message.ad, Message.cd, m1, m15, Nat.shiftRight_eq_div_pow, hf, List.getElem?_cons_zero,
      List.getElem?_cons_succ, Option.elim, ascii_header, ascii_nl]
    have e2 : ∀ x : List UInt8, x ++ [10] ++ ascii ";; flags:" = x ++ ascii "\n;; flags:" := by
      intro x; rw [List.append_assoc, ascii_flags]
    rw [e2]
  refine ⟨e, ?_⟩
  rw [e]
  unfold headerText
  have hd : ∀ n, NZ (decText n) := fun n => NZ.of (printable_decText n)
  have hop : NZ (opcodeText (m.flags / 2 ^ 11 % 16)) := NZ.of (printable_opcodeText _)
  have hrc : NZ ((rcodeToStr m.rcode).getD (decText m.rcode)) := by
    cases h : rcodeToStr m.rcode with
    | none => exact hd _
    | some s => exact NZ.of (printable_rcode h)
  have hfl : ∀ (b : Nat) (s : String), NZ (ascii s) → NZ (if b % 2 = 1 then ascii s else []) := by
    intro b s hs
    split
    · exact hs
    · decide
  simp only [nz_app]
  and_intros
  all_goals first | decide | exact hop | exact hrc | exact hd _ | (exact hfl _ _ (by decide))

theorem readSec_clean {sec : Nat} {mem : List UInt8} {len : Nat} (hm : len ≤ mem.length) (h64 : len < 2 ^ 64) : ∀ {n p rrs p'},
    (∀ j < n, ∀ o, Walk (mem.take len) (sec = 0) j p o → sec ≠ 0 → RecNoLong (mem.take len) o) → readSec sec mem len n p = ok (rrs, p') →
    p ≤ p' ∧ ∀ r ∈ rrs, ∃ o sz, p ≤ o ∧ (sec ≠ 0 → RecNoLong (mem.take len) o) ∧ parseMessageRr sec mem 0 len o = ok (r, sz) := by
  intro n
  induction n with
  | zero =>
    intro p rrs p' _ h
    simp only [readSec, ok.injEq, Prod.mk.injEq] at h
    obtain ⟨rfl, rfl⟩ := h
    simp
  | succ n ih =>
    intro p rrs p' hc h
    simp only [readSec] at h
    split at h
    · simp only [ok.injEq, Prod.mk.injEq] at h
      obtain ⟨rfl, rfl⟩ := h
      simp
    · obtain ⟨⟨rr, sz⟩, h1, h⟩ := bind_eq_ok.mp h
      obtain ⟨⟨rrs', p1⟩, h2, h⟩ := bind_eq_ok.mp h
      simp only [ok.injEq, Prod.mk.injEq] at h
      obtain ⟨rfl, rfl⟩ := h
      obtain ⟨e, he, _, _, hlt, hst⟩ := parseMessageRr_step hm h64 h1
      obtain ⟨g1, g2⟩ := ih (fun j hj o hw => hc (j + 1) (by omega) o (.succ he (by
        simp only [decide_eq_true_eq]; rw [← hst]; exact hw))) h2
      refine ⟨by omega, ?_⟩
      intro r hr
      rcases List.mem_cons.mp hr with rfl | hr
      · exact ⟨p, sz, Nat.le_refl _, hc 0 (by omega) p .zero, h1⟩
      · obtain ⟨o, sz', i1, i2, i3⟩ := g2 r hr
        exact ⟨o, sz', by omega, i2, i3⟩

theorem readAll_clean {mem : List UInt8} {len : Nat} (hm : len ≤ mem.length) (h64 : len < 2 ^ 64) : ∀ {secs : List (Nat × Nat)} {p all},
    CleanFrom (mem.take len) secs p → readAll mem len secs p = ok all →
    ∀ r ∈ all, ∃ o sz, p ≤ o ∧ (r.1 ≠ 0 → RecNoLong (mem.take len) o) ∧ parseMessageRr r.1 mem 0 len o = ok (r.2, sz) := by
  intro secs
  induction secs with
  | nil => intro p all _ h; simp only [readAll, ok.injEq] at h; simp [← h]
  | cons s rest ih =>
    obtain ⟨sec, c⟩ := s
    intro p all hc h
    simp only [readAll] at h
    obtain ⟨⟨rrs, p'⟩, h1, h⟩ := bind_eq_ok.mp h
    obtain ⟨more, h2, h⟩ := bind_eq_ok.mp h
    simp only [ok.injEq] at h
    subst h
    obtain ⟨h3, h4⟩ := readSec_clean hm h64 hc.1 h1
    intro r hr
    rcases List.mem_append.mp hr with hr | hr
    · simp only [List.mem_map] at hr
      obtain ⟨r, hr', rfl⟩ := hr
      exact h4 r hr'
    · obtain ⟨o, sz, i1, i2, i3⟩ := ih (cleanFrom_next hm h64 hc h1) h2 r hr
      exact ⟨o, sz, by omega, i2, i3⟩

/-- A record parsed from a packet of at most 65305 octets has fewer than 65536 octets of rdata. -/
theorem rr_short {mem : List UInt8} {sec len o sz : Nat} {rr : RR} {d : CRdata} (hm : len ≤ mem.length) (hlen : len ≤ 65305) (ho : 12 ≤ o)
    (hno : sec ≠ 0 → RecNoLong (mem.take len) o) (h : parseMessageRr sec mem 0 len o = ok (rr, sz)) (hd : rr.rdata = some d) :
    d.data.length < 65536 := by
  have h64 : len < 2 ^ 64 := by omega
  obtain ⟨_, _, hq, _, _, _⟩ := parseMessageRr_valid h
  have h0 : sec ≠ 0 := fun h0 => by rw [(hq h0).1] at hd; cases hd
  have h' := h
  unfold parseMessageRr at h'
  obtain ⟨⟨nm, l⟩, hu, h'⟩ := bind_eq_ok.mp h'
  obtain ⟨⟨e, k⟩, hs, -⟩ := bind_eq_ok.mp h'
  rw [parseMessageRr_eq hu hs hm] at h
  split at h
  · simp at h
  rename_i hb
  split at h
  · simp at h
  rename_i hr
  have hee : EncEnd (mem.take len) o e := by
    obtain ⟨_, h2, n, e', _, _, _, _, he1, he2, he3, he4⟩ := unpack_skip h64 hu hs
    have hse : e = e' := by omega
    subst hse
    exact encEnd_shrink he1 (by omega)
  have hlt := encEnd_lt hee
  obtain ⟨r, hp, h⟩ := bind_eq_ok.mp h
  simp only [ok.injEq, Prod.mk.injEq] at h
  obtain ⟨rfl, rfl⟩ := h
  cases hd
  have hsvc : u16At mem e = 64 ∨ u16At mem e = 65 → u16At mem (e + 2) = 1 → ¬ LongSvc (mem.take len) (e + 10) (u16At mem (e + 8)) := by
    intro ht hc
    have := hno h0 e hee (by rw [u16At_take (by omega)]; exact ht) (by rw [u16At_take (by omega)]; exact hc)
    rwa [u16At_take (by omega)] at this
  exact (C39_length_iff mem 0 len (e + 10) _ _ _ d hp).2.mp
    (C39_length_exact_partial mem 0 len (e + 10) _ _ _ d hm h64 (by omega) (by omega) (u16At_lt _ _) hsvc (.inr (by omega)) hp)

theorem clean_header {mem : List UInt8} {len : Nat} (h12 : 12 ≤ len) (hno : SvcNoLong (mem.take len)) :
    CleanFrom (mem.take len) (headerSecs mem) 12 := by
  have := cleanFrom_of_svcNoLong hno
  simpa [headerSecs, u16At_take (show 4 + 1 < len by omega), u16At_take (show 6 + 1 < len by omega), u16At_take (show 8 + 1 < len by omega),
    u16At_take (show 10 + 1 < len by omega)] using this

/-- `Fits` in terms of the records. -/
theorem fits_of {msg : List UInt8} {all : List (Nat × RR)} {m : Message} (h2 : MessageOf msg all m)
    (h : ∀ r ∈ all, ∀ d, r.2.rdata = some d → d.data.length < 65536) : m.Fits := by
  intro a ha s hs d hd
  obtain ⟨i, hi⟩ := List.getElem?_of_mem ha
  have hg := h2.2.2.2.2 i a hi
  unfold SectionIs at hg
  by_cases h0 : i = 0
  · rw [if_pos h0] at hg
    have hm : s.view ∈ a.rrsets.map RRset.view := List.mem_map_of_mem hs
    rw [hg.rrsets_eq, List.mem_map] at hm
    obtain ⟨r, _, hv⟩ := hm
    simp only [RRset.view, Prod.mk.injEq] at hv
    have := hv.2.2.2.2
    rw [eq_comm, List.map_eq_nil_iff] at this
    rw [this] at hd
    cases hd
  · rw [if_neg h0] at hg
    rw [hg.rdatas s hs, List.mem_filterMap] at hd
    obtain ⟨r, hr, hrd⟩ := hd
    exact h _ ((sectionOf_sub all i).1 r (List.mem_filter.mp hr).1) d hrd

/-- A packet of at most 65305 octets is too short for the lengths to wrap. -/
theorem fits_short {mem : List UInt8} {len : Nat} {m : Message} (hm : len ≤ mem.length) (hlen : len ≤ 65305) (hno : SvcNoLong (mem.take len))
    (h : parseMessage mem len = ok m) : m.Fits := by
  have h64 : len < 2 ^ 64 := by omega
  obtain ⟨h12, all, h1, h2, h3⟩ := parseMessage_sections hm h
  have hc := clean_header h12 hno
  refine fits_of h2 fun r hr d hd => ?_
  obtain ⟨o, sz, ho, hn, hp⟩ := readAll_clean hm h64 hc h1 _ hr
  exact rr_short hm hlen ho hn hp hd

/-- Everything a successfully parsed packet stores has been read from it, and can be rendered. -/
theorem parsed_from {mem : List UInt8} {len : Nat} {m : Message} (hm : len ≤ mem.length) (h64 : len < 2 ^ 64) (hlen : m.Fits) (hno : SvcNoLong (mem.take len))
    (h : parseMessage mem len = ok m) :
    ∃ all, MessageOf mem all m ∧ (∀ r ∈ all, ∃ o sz, parseMessageRr r.1 mem 0 len o = ok (r.2, sz)) ∧ (∀ r ∈ all, RROk r.1 r.2) ∧
      ∀ (i : Nat) a, m.sections[i]? = some a → insertAll i .empty (sectionOf all i) = ok a ∧ a.rrs = sectionOf all i ∧
        ∀ r ∈ sectionOf all i, RROk i r := by
  obtain ⟨h12, all, h1, h2, h3⟩ := parseMessage_sections hm h
  have hc := clean_header h12 hno
  have hall : ∀ r ∈ all, RROk r.1 r.2 := by
    intro r hr
    obtain ⟨o, sz, ho, hn, hp⟩ := readAll_clean hm h64 hc h1 r hr
    refine rrOk_of_parse hm h64 hn hp fun h41 d hd => ?_
    have hi : r.1 ∈ [0, 1, 2, 3] := readAll_tags h1 r hr
    have h0 : r.1 ≠ 0 := fun h0 => by rw [((parseMessageRr_valid hp).2.2.1 h0).1] at hd; cases hd
    obtain ⟨a, ha⟩ : ∃ a, m.sections[r.1]? = some a := by
      have : r.1 < m.sections.length := by
        rw [h2.2.2.2.1]
        simp only [List.mem_cons, List.not_mem_nil, or_false] at hi
        omega
      exact ⟨_, List.getElem?_eq_getElem this⟩
    have hg := h2.2.2.2.2 r.1 a ha
    unfold SectionIs at hg
    rw [if_neg h0] at hg
    have hmem : r.2 ∈ sectionOf all r.1 := by
      unfold sectionOf
      refine List.mem_map.mpr ⟨r, List.mem_filter.mpr ⟨?_, by simp⟩, rfl⟩
      exact (List.mem_eraseP_of_neg (by simpa [isOpt] using h41)).mpr hr
    have hk : r.2.key ∈ a.rrsets.map RRset.key := by
      rw [hg.keys, List.mem_eraseDups]
      exact List.mem_map_of_mem hmem
    obtain ⟨s, hs, hsk⟩ := List.mem_map.mp hk
    refine hlen a (List.mem_of_getElem? ha) s hs d ?_
    rw [hg.rdatas s hs, List.mem_filterMap]
    exact ⟨r.2, List.mem_filter.mpr ⟨hmem, by simp [hsk]⟩, hd⟩
  refine ⟨all, h2, fun r hr => (readAll_valid (headerSecs_nodup mem) h1).1 r hr, hall, ?_⟩
  intro i a ha
  have hs : ∀ r ∈ sectionOf all i, RROk i r := fun r hr => hall _ ((sectionOf_sub all i).1 r hr)
  refine ⟨h3 i a ha, ?_, hs⟩
  rw [insertAll_rrs _ _ _ hs (h3 i a ha)]
  rfl

/-- Everything a successfully parsed packet stores can be rendered. -/
theorem parsed_ok {mem : List UInt8} {len : Nat} {m : Message} (hm : len ≤ mem.length) (h64 : len < 2 ^ 64) (hlen : m.Fits) (hno : SvcNoLong (mem.take len))
    (h : parseMessage mem len = ok m) :
    ∃ all, MessageOf mem all m ∧ (∀ r ∈ all, RROk r.1 r.2) ∧
      ∀ (i : Nat) a, m.sections[i]? = some a → insertAll i .empty (sectionOf all i) = ok a ∧ a.rrs = sectionOf all i ∧
        ∀ r ∈ sectionOf all i, RROk i r := by
  obtain ⟨all, h1, -, h3, h4⟩ := parsed_from hm h64 hlen hno h
  exact ⟨all, h1, h3, h4⟩

theorem four_sections {l : List RRsetArray} (h : l.length = 4) : ∃ a b c d, l = [a, b, c, d] := by
  match l, h with
  | [a, b, c, d], _ => exact ⟨a, b, c, d, rfl⟩

/-- **C62**, for packets anywhere in memory, whose rdata lengths do not wrap (C39) and without a SvcParam too long for the parser: rendering the parsed message is
defined, and gives the header lines, the EDNS lines, and after each section's heading one line per record of that section, in
order, with nothing else.

Missing: decompressed rdata of 65536 octets or more, which exceeds the 16-bit length field (C39; no packet of at most 65305 octets has it,
`C62_short_partial`), and the SvcParam overflow (C36). -/
theorem C62_message_text_partial (mem : List UInt8) (len : Nat) (m : Message) (hm : len ≤ mem.length) (h64 : len < 2 ^ 64) (hlen : m.Fits)
    (hno : SvcNoLong (mem.take len)) (h : parseMessage mem len = ok m) :
    ∃ s0 s1 s2 s3 e t0 t1 t2 t3, m.sections = [s0, s1, s2, s3] ∧ EdnsLines m.edns e ∧
      LinesOf 0 s0.rrs t0 ∧ LinesOf 1 s1.rrs t1 ∧ LinesOf 2 s2.rrs t2 ∧ LinesOf 3 s3.rrs t3 ∧
      messageToStr m = ok (headerText m s0.rrs.length s1.rrs.length s2.rrs.length s3.rrs.length ++ e ++
        ascii "\n;; QUESTION SECTION:\n" ++ t0 ++ ascii "\n;; ANSWER SECTION:\n" ++ t1 ++
        ascii "\n;; AUTHORITY SECTION:\n" ++ t2 ++ ascii "\n;; ADDITIONAL SECTION:\n" ++ t3) := by
  obtain ⟨all, hmo, hok, hsec⟩ := parsed_ok hm h64 hlen hno h
  obtain ⟨s0, s1, s2, s3, hs⟩ := four_sections hmo.2.2.2.1
  have hopt : ∀ o, m.edns.options = some o → o.len = o.data.length := by
    intro o ho
    have he := hmo.2.2.1
    cases hf : all.find? isOpt with
    | none => rw [hf] at he; rw [he.1] at ho; cases ho
    | some r =>
      rw [hf] at he
      simp only at he
      rw [he] at ho
      simp only at ho
      have hr := hok r (List.mem_of_find?_eq_some hf)
      by_cases h0 : r.1 = 0
      · rw [hr.question h0] at ho; cases ho
      · obtain ⟨x, hx, _⟩ := hr.rdata h0
        rw [hx] at ho; cases ho; rfl
  obtain ⟨e, he, hez, hem⟩ := msgEdns_render m.edns hopt
  obtain ⟨hh, hhz⟩ := msgHeader_eq m hs
  have r0 := hsec 0 s0 (by simp [hs])
  have r1 := hsec 1 s1 (by simp [hs])
  have r2 := hsec 2 s2 (by simp [hs])
  have r3 := hsec 3 s3 (by simp [hs])
  have hcl : ∀ (u : List UInt8) (s : String), (ascii s).getLast? = some 10 → Clean (u ++ ascii s) := by
    intro u s h
    unfold Clean; rw [List.getLast?_append, h]; simp
  obtain ⟨t0, a0, z0, b0, c0⟩ := rrsToUbuf_render s0.rrs (msgHeader m ++ e ++ ascii "\n;; QUESTION SECTION:\n")
    (hcl _ _ (by decide)) (by rw [r0.2.1]; exact r0.2.2)
  obtain ⟨t1, a1, z1, b1, c1⟩ := rrsToUbuf_render s1.rrs (msgHeader m ++ e ++ ascii "\n;; QUESTION SECTION:\n" ++ t0 ++
    ascii "\n;; ANSWER SECTION:\n") (hcl _ _ (by decide)) (by rw [r1.2.1]; exact r1.2.2)
  obtain ⟨t2, a2, z2, b2, c2⟩ := rrsToUbuf_render s2.rrs (msgHeader m ++ e ++ ascii "\n;; QUESTION SECTION:\n" ++ t0 ++
    ascii "\n;; ANSWER SECTION:\n" ++ t1 ++ ascii "\n;; AUTHORITY SECTION:\n") (hcl _ _ (by decide))
    (by rw [r2.2.1]; exact r2.2.2)
  obtain ⟨t3, a3, z3, b3, c3⟩ := rrsToUbuf_render s3.rrs (msgHeader m ++ e ++ ascii "\n;; QUESTION SECTION:\n" ++ t0 ++
    ascii "\n;; ANSWER SECTION:\n" ++ t1 ++ ascii "\n;; AUTHORITY SECTION:\n" ++ t2 ++ ascii "\n;; ADDITIONAL SECTION:\n")
    (hcl _ _ (by decide)) (by rw [r3.2.1]; exact r3.2.2)
  refine ⟨s0, s1, s2, s3, e, t0, t1, t2, t3, hs, he, a0, a1, a2, a3, ?_⟩
  unfold messageToStr
  simp only [hem, ok_bind, hs, List.getElem?_cons_zero, List.getElem?_cons_succ, Option.elim, b0, b1, b2, b3]
  have q1 : NZ (ascii "\n;; QUESTION SECTION:\n") := by decide
  have q2 : NZ (ascii "\n;; ANSWER SECTION:\n") := by decide
  have q3 : NZ (ascii "\n;; AUTHORITY SECTION:\n") := by decide
  have q4 : NZ (ascii "\n;; ADDITIONAL SECTION:\n") := by decide
  have hz := ((((((((hhz.append hez).append q1).append z0).append q2).append z1).append q3).append z2).append q4).append z3
  rw [cstrOf_of hz, hh]

/-- The sample message, whose parse result is `sampleParsed`. -/
example : messageToStr sampleParsed = ok (ascii (";; ->>HEADER<<- opcode: QUERY, rcode: NOERROR, id: 4660\n" ++
    ";; flags: qr rd ra; QUERY: 1, ANSWER: 1, AUTHORITY: 0, ADDITIONAL: 0\n" ++
    "\n;; OPT PSEUDOSECTION:\n; EDNS: version: 0, flags: do; udp: 4096" ++
    "\n;; QUESTION SECTION:\n;a. IN A\n" ++
    "\n;; ANSWER SECTION:\na. 60 IN A 1.2.3.4\n" ++ "\n;; AUTHORITY SECTION:\n" ++ "\n;; ADDITIONAL SECTION:\n")) := by
  decide +kernel

example : sampleMsg.length ≤ 65305 ∧ SvcNoLong sampleMsg ∧ parseMessage sampleMsg sampleMsg.length = ok sampleParsed :=
  ⟨by decide, sample_svc, sample_parse⟩

/-- **C62**: in a packet of at most 65305 octets no length wraps. -/
theorem C62_short_partial (mem : List UInt8) (len : Nat) (m : Message) (hm : len ≤ mem.length) (hlen : len ≤ 65305) (hno : SvcNoLong (mem.take len))
    (h : parseMessage mem len = ok m) : m.Fits :=
  fits_short hm hlen hno h

/-- **C62**: a single record of a parsed packet (`wdns_rr_to_str`) and a whole section (`wdns_rrset_array_to_str`). -/
theorem C62_section_text_partial (mem : List UInt8) (len : Nat) (m : Message) (i : Nat) (a : RRsetArray) (hm : len ≤ mem.length) (h64 : len < 2 ^ 64) (hlen : m.Fits)
    (hno : SvcNoLong (mem.take len)) (h : parseMessage mem len = ok m) (ha : m.sections[i]? = some a) :
    (∃ t, LinesOf i a.rrs t ∧ rrsetArrayToStr a i = ok t) ∧ ∀ rr ∈ a.rrs, ∃ l, RRText i rr l ∧ rrToStr rr i = ok l := by
  obtain ⟨all, _, _, hsec⟩ := parsed_ok hm h64 hlen hno h
  obtain ⟨_, h2, h3⟩ := hsec i a ha
  constructor
  · obtain ⟨t, h4, h5, h6, _⟩ := rrsToUbuf_render (sec := i) a.rrs [] Clean.nil (by rw [h2]; exact h3)
    refine ⟨t, h4, ?_⟩
    unfold rrsetArrayToStr
    rw [h6, ok_bind, List.nil_append, cstrOf_of h5]
  · intro rr hr
    obtain ⟨l, h4, h5, h6, _⟩ := rrToUbuf_render (sec := i) (rr := rr) Clean.nil (h3 rr (by rw [← h2]; exact hr))
    refine ⟨l, h4, ?_⟩
    unfold rrToStr
    rw [h6, ok_bind, List.nil_append, cstrOf_of h5]

/-- A case of `C62_section_text_partial`: the answer section of the sample. -/
example : ∃ a, sampleParsed.sections[1]? = some a ∧ ∃ t, LinesOf 1 a.rrs t ∧ rrsetArrayToStr a 1 = ok t :=
  ⟨_, rfl, (C62_section_text_partial sampleMsg sampleMsg.length sampleParsed 1 _ (Nat.le_refl _) (by decide)
    (C62_short_partial sampleMsg sampleMsg.length sampleParsed (Nat.le_refl _) (by decide) sample_svc sample_parse) sample_svc sample_parse rfl).1⟩

/-! ## C64 -/

theorem rrsetLoop_render {sec : Nat} (s : RRset) : ∀ (ds : List CRdata) (u : List UInt8), Clean u →
    (∀ d ∈ ds, RROk sec ⟨s.rrttl, s.rrtype, s.rrclass, s.name, some d⟩) →
    ∃ t, LinesOf sec (ds.map fun d => ⟨s.rrttl, s.rrtype, s.rrclass, s.name, some d⟩) t ∧ NZ t ∧
      rrsetLoop s sec (ds.map some) u = ok (u ++ t) := by
  intro ds
  induction ds with
  | nil => intro u _ _; exact ⟨[], .nil, by decide, by simp [rrsetLoop]⟩
  | cons d ds ih =>
    intro u hu h
    obtain ⟨l, h1, h2, h3, h4⟩ := rrToUbuf_render hu (h d (by simp))
    obtain ⟨t, g1, g2, g3⟩ := ih _ h4 fun r hr => h r (by simp [hr])
    refine ⟨l ++ t, .cons h1 g1, h2.append g2, ?_⟩
    rw [List.map_cons, rrsetLoop, h3, ok_bind, g3, List.append_assoc]

/-- What a parsed packet's RRset holds can be rendered, and its blocks are as long as they say. -/
theorem rrset_ok {mem : List UInt8} {len : Nat} {m : Message} {i : Nat} {a : RRsetArray} {s : RRset}
    (hm : len ≤ mem.length) (h64 : len < 2 ^ 64) (hlen : m.Fits) (hno : SvcNoLong (mem.take len)) (h : parseMessage mem len = ok m)
    (ha : m.sections[i]? = some a) (hi : i ≠ 0) (hs : s ∈ a.rrsets) :
    (∃ n, WF n ∧ s.name = ⟨(wire n).length, wire n⟩) ∧ ∀ d ∈ s.rdatas, RROk i ⟨s.rrttl, s.rrtype, s.rrclass, s.name, some d⟩ := by
  obtain ⟨all, hmo, _, hsec⟩ := parsed_ok hm h64 hlen hno h
  obtain ⟨h1, h2, h3⟩ := hsec i a ha
  have hg := hmo.2.2.2.2 i a ha
  unfold SectionIs at hg
  rw [if_neg hi] at hg
  obtain ⟨r1, hr1, _, httl⟩ := hg.ttl_mem s hs
  have hname : ∃ n, WF n ∧ s.name = ⟨(wire n).length, wire n⟩ := by
    have := hg.owner s hs
    cases hh : ((sectionOf all i).filter fun r => r.key = s.key).head? with
    | none => rw [hh] at this; cases this
    | some r =>
      rw [hh] at this
      simp only [Option.map_some, Option.some.injEq] at this
      rw [← this]
      exact (h3 r ((List.mem_filter.mp (List.mem_of_mem_head? hh)).1)).name
  refine ⟨hname, ?_⟩
  intro d hd
  rw [hg.rdatas s hs, List.mem_filterMap] at hd
  obtain ⟨r, hr, hrd⟩ := hd
  rw [List.mem_filter] at hr
  obtain ⟨hr, hk⟩ := hr
  simp only [decide_eq_true_eq] at hk
  have hrk := h3 r hr
  have ht : r.rrtype = s.rrtype ∧ r.rrclass = s.rrclass := by
    simp only [RR.key, RRset.key, Prod.mk.injEq] at hk
    exact ⟨hk.1, hk.2.1⟩
  refine ⟨hname, by rw [httl]; exact (h3 r1 hr1).ttl, fun h => absurd h hi, fun _ => ?_⟩
  obtain ⟨x, hx, hx2⟩ := hrk.rdata hi
  rw [hrd, Option.some.injEq] at hx
  subst hx
  rw [ht.1, ht.2] at hx2
  exact ⟨x, rfl, hx2⟩

/-- **C64** outside the question section (and for packets as in C62): `wdns_rrset_to_str` is defined and gives one line per
rdata of the RRset, in order, each with the owner name, TTL, class and type of the RRset. -/
theorem C64_rrset_text_partial (mem : List UInt8) (len : Nat) (m : Message) (i : Nat) (a : RRsetArray) (s : RRset)
    (hm : len ≤ mem.length) (h64 : len < 2 ^ 64) (hlen : m.Fits) (hno : SvcNoLong (mem.take len)) (h : parseMessage mem len = ok m)
    (ha : m.sections[i]? = some a) (hi : i ≠ 0) (hs : s ∈ a.rrsets) :
    ∃ t, LinesOf i (s.rdatas.map fun d => ⟨s.rrttl, s.rrtype, s.rrclass, s.name, some d⟩) t ∧ rrsetToStr s i = ok t := by
  obtain ⟨t, h4, h5, h6⟩ := rrsetLoop_render s s.rdatas [] Clean.nil (rrset_ok hm h64 hlen hno h ha hi hs).2
  refine ⟨t, h4, ?_⟩
  unfold rrsetToStr rrsetToUbuf
  rw [if_neg hi, h6, ok_bind, List.nil_append, cstrOf_of h5]

/-- The answer of the sample message. -/
example : ∃ a s, sampleParsed.sections[1]? = some a ∧ s ∈ a.rrsets ∧ rrsetToStr s 1 = ok (ascii "a. 60 IN A 1.2.3.4\n") :=
  ⟨_, ⟨60, 1, 1, ⟨3, [1, 97, 0]⟩, [⟨4, [1, 2, 3, 4]⟩]⟩, rfl, by simp, by decide +kernel⟩

/-- **C64** fails for the question section: every RRset there is without rdata, and rendering it as a question reads the first
rdata pointer of an array that does not exist (a null pointer). -/
theorem C64_question_violation (mem : List UInt8) (len : Nat) (m : Message) (a : RRsetArray) (s : RRset) (hm : len ≤ mem.length)
    (h : parseMessage mem len = ok m) (ha : m.sections[0]? = some a) (hs : s ∈ a.rrsets) : rrsetToStr s 0 = ub := by
  obtain ⟨_, all, _, hmo, _⟩ := parseMessage_ok hm h
  have hq := hmo.2.2.2.2 0 a ha
  unfold SectionIs at hq
  rw [if_pos rfl] at hq
  have hm : s.view ∈ a.rrsets.map RRset.view := List.mem_map_of_mem hs
  rw [hq.rrsets_eq, List.mem_map] at hm
  obtain ⟨r, _, hr⟩ := hm
  simp only [RRset.view, Prod.mk.injEq] at hr
  have : s.rdatas = [] := by
    have := hr.2.2.2.2
    simpa using this.symm
  unfold rrsetToStr rrsetToUbuf
  rw [if_pos rfl, this]
  rfl

/-- The question of the sample message. -/
example : ∃ a s, sampleParsed.sections[0]? = some a ∧ s ∈ a.rrsets ∧ rrsetToStr s 0 = ub :=
  ⟨_, ⟨0, 1, 1, ⟨3, [1, 97, 0]⟩, []⟩, rfl, by simp, by decide +kernel⟩

end Wdns
