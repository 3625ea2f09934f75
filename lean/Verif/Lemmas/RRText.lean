import Verif.Spec.RRText
import Verif.Props.RdataText
import Verif.Props.Message

/-! # Lemmas: rendering records -/

namespace Wdns
open Outcome Spec

/-- What rendering needs to know of an rdata. -/
def RdOk (ty cls : Nat) (x : List UInt8) : Prop :=
  x.length < 65536 ∧ ∀ d, recordDescr ty = some d → d.applies cls = true → Conforms d.types x

/-- What rendering needs to know of a record in section `sec`. -/
structure RROk (sec : Nat) (rr : RR) : Prop where
  name : ∃ n, WF n ∧ rr.name = ⟨(wire n).length, wire n⟩
  ttl : rr.rrttl < 2 ^ 32
  question : sec = 0 → rr.rdata = none
  rdata : sec ≠ 0 → ∃ x, rr.rdata = some ⟨x.length, x⟩ ∧ RdOk rr.rrtype rr.rrclass x

/-- No NUL among the octets. -/
def NZ (t : List UInt8) : Prop := ∀ b ∈ t, b ≠ 0

theorem NZ.append {a b : List UInt8} (ha : NZ a) (hb : NZ b) : NZ (a ++ b) := by
  intro x hx
  rcases List.mem_append.mp hx with h | h
  · exact ha x h
  · exact hb x h

theorem nz_app {a b : List UInt8} : NZ (a ++ b) ↔ NZ a ∧ NZ b :=
  ⟨fun h => ⟨fun x hx => h x (by simp [hx]), fun x hx => h x (by simp [hx])⟩, fun h => h.1.append h.2⟩

theorem NZ.of {t : List UInt8} (h : Printable t) : NZ t := h.ne_zero

instance : DecidablePred NZ := fun t => by unfold NZ; infer_instance

theorem clean_snoc10 (u : List UInt8) : Clean (u ++ [10]) := by
  unfold Clean; rw [List.getLast?_append]; simp

theorem printable_classText (c : Nat) : Printable (classText c) := by
  unfold classText
  cases h : rrclassToStr c with
  | none => exact Printable.append (by decide) (printable_decText _)
  | some s =>
    have : ∀ x ∈ rrclassCases, Printable x.2 := by decide +kernel
    exact this (c, s) (switchOf_mem h)

theorem printable_rcode {c : Nat} {s : List UInt8} (h : rcodeToStr c = some s) : Printable s := by
  have : ∀ x ∈ rcodeCases, Printable x.2 := by decide +kernel
  exact this (c, s) (switchOf_mem h)

theorem recordDescr_opt : recordDescr 41 = some ⟨0, [.ednsOptRdata]⟩ := by decide

theorem rdata_part {u : List UInt8} {ty cls : Nat} {x : List UInt8} (hu : Clean u) (h : RdOk ty cls x) :
    ∃ t, RdPart ty cls x t ∧ NZ t ∧ rdataToUbuf (u ++ [32]) x x.length ty cls = ok (u ++ t) := by
  have hu1 : Clean (u ++ [32]) := hu.append (by decide)
  cases hd : recordDescr ty with
  | none =>
    refine ⟨_, .generic hd, NZ.of (Printable.append (by decide) (printable_generic _)), ?_⟩
    have := rdataToUbuf_generic (u := u ++ [32]) (extra := []) (cls := cls) hd h.1
    rw [List.append_nil] at this
    rw [this, List.append_assoc]
  | some d =>
    by_cases ha : d.applies cls = true
    · by_cases h41 : ty = 41
      · subst h41
        by_cases hx : x = []
        · subst hx
          refine ⟨[], .noOpt rfl rfl, by intro b hb; simp at hb, ?_⟩
          unfold rdataToUbuf
          rw [hd]
          simp only [ha, if_true]
          have : ∀ ts (st : TState), st.bytes = 0 → tFields [] ts st = ok (.go st) := by
            intro ts st hs
            cases ts with
            | nil => rfl
            | cons t ts => rw [tFields, if_pos hs]
          rw [this _ _ (by simp)]
          simp [stripLast]
        · obtain ⟨s, h1, h2⟩ := rdataToUbuf_opt (u := u ++ [32]) (extra := []) (cls := cls) hu1 hx
          refine ⟨_, .opt rfl h1, NZ.append (by decide) (optsText_nonzero h1), ?_⟩
          rw [List.append_nil] at h2
          rw [h2, List.append_assoc]
      · obtain ⟨toks, text, h1, h2, h3, h4⟩ :=
          rdataToUbuf_render (u := u ++ [32]) (mem := x) hd ha h41 (h.2 d hd ha) ⟨by simp, by simp⟩ h.1 hu1
        refine ⟨_, .known h41 hd ha h1, ?_, ?_⟩
        · split
          · intro b hb; simp at hb
          · exact NZ.of (Printable.append (by decide) (printable_spaced h2))
        · rw [h4]
          by_cases ht : text = []
          · have htoks : toks = [] := by
              rcases h3 with h3 | ⟨_, h3, _⟩
              · cases toks with
                | nil => rfl
                | cons a l => subst ht; simp [emit] at h3
              · exact absurd ht h3
            rw [if_pos htoks, ht]
            simp [stripLast]
          · have htoks : toks ≠ [] := by
              rintro rfl
              rcases h3 with h3 | ⟨h3, _, _⟩
              · exact ht h3
              · exact ht h3
            rw [if_neg htoks, textOf_strip h3 (Or.inr ht), List.append_assoc]
    · simp only [Bool.not_eq_true] at ha
      refine ⟨[32], .hidden hd ha, by decide, ?_⟩
      unfold rdataToUbuf
      rw [hd]
      simp [ha]

theorem rrToUbuf_render {u : List UInt8} {rr : RR} {sec : Nat} (hu : Clean u) (h : RROk sec rr) :
    ∃ l, RRText sec rr l ∧ NZ l ∧ rrToUbuf u rr sec = ok (u ++ l) ∧ Clean (u ++ l) := by
  obtain ⟨n, hn, hname⟩ := h.name
  have hbytes : rr.name.bytes = wire n := by rw [hname]; simp [CName.bytes]
  have hdom : domainToStr preslenName rr.name.data rr.name.len = ok ((wire n).length, nameText n) := by
    rw [hname]
    have := domainToStr_spec (cap := preslenName) (rest := []) hn (by decide)
    rwa [List.append_nil] at this
  have hpn : Printable (nameText n) := printable_nameText n
  have hcls : classTok rr.rrclass = ascii " " ++ classText rr.rrclass := by
    unfold classText classTok
    cases rrclassToStr rr.rrclass with
    | none => simp only [Option.getD_none, fmtU_eq, ← List.append_assoc]; rfl
    | some s => rfl
  have hty : rrtypeTok rr.rrtype = ascii " " ++ typeText rr.rrtype := by
    unfold typeText rrtypeTok
    cases rrtypeToStr rr.rrtype with
    | none => simp only [Option.getD_none, fmtU_eq, ← List.append_assoc]; rfl
    | some s => rfl
  have hpc : Printable (ascii " " ++ classText rr.rrclass) := Printable.append (by decide) (printable_classText _)
  have hpt : Printable (ascii " " ++ typeText rr.rrtype) := Printable.append (by decide) (printable_typeText _)
  unfold rrToUbuf
  rw [hdom]
  simp only [ok_bind, hcls, hty]
  by_cases hs : sec = 0
  · subst hs
    simp only [if_true, ne_eq, not_true_eq_false, if_false, ok_bind]
    have hu1 : Clean (u ++ [59]) := hu.append (by decide)
    rw [uAddCstr_clean hu1]
    have hu2 := hu1.append hpn
    rw [uAddCstr_clean hu2]
    have hu3 := hu2.append hpc
    rw [uAddCstr_clean hu3]
    refine ⟨_, .question hbytes hn, ?_, ?_, ?_⟩
    · refine NZ.append (NZ.of ?_) (by decide)
      have := ((Printable.append (a := ascii ";") (by decide) hpn).append hpc).append hpt
      simpa only [List.append_assoc] using this
    · simp only [List.append_assoc]; rfl
    · rw [← List.append_assoc]; exact clean_snoc10 _
  · simp only [ne_eq, hs, not_false_eq_true, if_true, if_false]
    obtain ⟨x, hx, hok⟩ := h.rdata hs
    have httl := h.ttl
    rw [decStr_eq (by omega) (by omega)]
    simp only [ok_bind, hx]
    rw [uAddCstr_clean hu]
    have hu2 := hu.append hpn
    have hu2' : Clean (u ++ nameText n ++ [32] ++ decText rr.rrttl) := (hu2.append (by decide)).append (printable_decText _)
    rw [uAddCstr_clean hu2']
    have hu3 := hu2'.append hpc
    rw [uAddCstr_clean hu3]
    have hu4 := hu3.append hpt
    obtain ⟨t, h1, h2, h3⟩ := rdata_part hu4 hok
    rw [h3]
    simp only [ok_bind]
    refine ⟨_, .record hs hbytes hn hx (by simpa [CRdata.bytes] using h1), ?_, ?_, ?_⟩
    · refine NZ.append (NZ.append (NZ.of ?_) h2) (by decide)
      have := (((hpn.append (b := ascii " ") (by decide)).append (printable_decText rr.rrttl)).append hpc).append hpt
      simpa only [List.append_assoc] using this
    · simp only [List.append_assoc]; rfl
    · rw [← List.append_assoc]; exact clean_snoc10 _

theorem rrsToUbuf_render {sec : Nat} : ∀ (rrs : List RR) (u : List UInt8), Clean u → (∀ r ∈ rrs, RROk sec r) →
    ∃ t, LinesOf sec rrs t ∧ NZ t ∧ rrsToUbuf sec rrs u = ok (u ++ t) ∧ Clean (u ++ t) := by
  intro rrs
  induction rrs with
  | nil => intro u hu _; exact ⟨[], .nil, by intro b hb; simp at hb, by simp [rrsToUbuf], by simpa using hu⟩
  | cons rr rrs ih =>
    intro u hu h
    obtain ⟨l, h1, h2, h3, h4⟩ := rrToUbuf_render hu (h rr (by simp))
    obtain ⟨t, g1, g2, g3, g4⟩ := ih _ h4 fun r hr => h r (by simp [hr])
    refine ⟨l ++ t, .cons h1 g1, h2.append g2, ?_, ?_⟩
    · rw [rrsToUbuf, h3, ok_bind, g3, List.append_assoc]
    · rw [← List.append_assoc]; exact g4

/-- A stored record is the parsed record. -/
theorem copyRR_id {sec : Nat} {rr : RR} (h : RROk sec rr) : copyRR rr sec = ok rr := by
  obtain ⟨n, hn, hname⟩ := h.name
  obtain ⟨ttl, ty, cls, name, rd⟩ := rr
  simp only at hname
  subst hname
  unfold copyRR
  rw [rdN_ok (by simp)]
  by_cases hs : sec = 0
  · have := h.question hs
    simp only at this
    subst this hs
    simp
  · obtain ⟨x, hx, _⟩ := h.rdata hs
    simp only at hx
    subst hx
    simp only [ne_eq, hs, not_false_eq_true, if_true, ok_bind]
    rw [rdN_ok (by simp)]
    simp

theorem insertAll_rrs {sec : Nat} : ∀ (rrs : List RR) (a a' : RRsetArray), (∀ r ∈ rrs, RROk sec r) →
    insertAll sec a rrs = ok a' → a'.rrs = a.rrs ++ rrs := by
  intro rrs
  induction rrs with
  | nil => intro a a' _ h; simp only [insertAll, ok.injEq] at h; simp [h]
  | cons rr rrs ih =>
    intro a a' hr h
    rw [insertAll] at h
    obtain ⟨a1, h1, h⟩ := bind_eq_ok.mp h
    have := ih a1 a' (fun r h => hr r (by simp [h])) h
    rw [this]
    have : a1.rrs = a.rrs ++ [rr] := by
      unfold insertRr at h1
      split at h1
      · cases h1
      · rw [copyRR_id (hr rr (by simp)), ok_bind] at h1
        have key : ∀ found : Option (List RRset), (match found with
            | some rs => ok ⟨a.rrs ++ [rr], rs.reverse⟩
            | none =>
              if a.rrsets.length + 1 ≥ 65536 then abort
              else
                ok (⟨a.rrs ++ [rr], a.rrsets ++ [⟨rr.rrttl, rr.rrtype, rr.rrclass, rr.name,
                  if sec ≠ 0 then rr.rdata.toList else []⟩]⟩ : RRsetArray)) = ok a1 → a1.rrs = a.rrs ++ [rr] := by
          intro found h
          cases found with
          | some rs => simp only [ok.injEq] at h; rw [← h]
          | none =>
            simp only at h
            split at h
            · cases h
            · simp only [ok.injEq] at h; rw [← h]
        by_cases hs : sec = 0
        · rw [if_pos hs] at h1
          exact key none h1
        · rw [if_neg hs] at h1
          obtain ⟨found, _, h1⟩ := bind_eq_ok.mp h1
          exact key found h1
    rw [this, List.append_assoc]
    rfl

/-- A parsed record can be rendered, whatever follows the packet in memory. -/
theorem rrOk_of_parse {mem : List UInt8} {sec len o sz : Nat} {rr : RR} (hm : len ≤ mem.length) (h64 : len < 2 ^ 64)
    (hno : sec ≠ 0 → RecNoLong (mem.take len) o) (h : parseMessageRr sec mem 0 len o = ok (rr, sz))
    (hfit : rr.rrtype ≠ 41 → ∀ d, rr.rdata = some d → d.data.length < 65536) : RROk sec rr := by
  obtain ⟨_, hname, hq, httl, _, _⟩ := parseMessageRr_valid h
  refine ⟨hname, httl, fun h0 => (hq h0).1, fun h0 => ?_⟩
  have h' := h
  unfold parseMessageRr at h'
  obtain ⟨⟨nm, l⟩, hu, h'⟩ := bind_eq_ok.mp h'
  obtain ⟨⟨e, k⟩, hs, -⟩ := bind_eq_ok.mp h'
  rw [parseMessageRr_eq hu hs hm] at h
  split at h
  · simp at h
  rename_i hb
  split at h
  · simp at h
  rename_i hr
  have hee : EncEnd (mem.take len) o e := by
    obtain ⟨_, h2, n, e', _, _, _, _, he1, he2, he3, he4⟩ := unpack_skip h64 hu hs
    have hse : e = e' := by omega
    subst hse
    exact encEnd_shrink he1 (by omega)
  have hlt := encEnd_lt hee
  obtain ⟨r, hp, h⟩ := bind_eq_ok.mp h
  simp only [ok.injEq, Prod.mk.injEq] at h
  obtain ⟨rfl, rfl⟩ := h
  have hsvc : u16At mem e = 64 ∨ u16At mem e = 65 → u16At mem (e + 2) = 1 → ¬ LongSvc (mem.take len) (e + 10) (u16At mem (e + 8)) := by
    intro ht hc
    have := hno h0 e hee (by rw [u16At_take (by omega)]; exact ht) (by rw [u16At_take (by omega)]; exact hc)
    rwa [u16At_take (by omega)] at this
  have hlt : r.data.length < 65536 := by
    by_cases h41 : u16At mem e = 41
    · exact (C39_length_iff mem 0 len (e + 10) _ _ _ r hp).2.mp
        (C39_length_exact_partial mem 0 len (e + 10) _ _ _ r hm h64 (by omega) (by omega) (u16At_lt _ _) hsvc (.inl (by rw [h41]; decide)) hp)
    · exact hfit h41 r rfl
  have hx := (C39_length_iff mem 0 len (e + 10) _ _ _ r hp).2.mpr hlt
  refine ⟨r.data, by rw [← hx], ?_, ?_⟩
  · have hv := parseRdata_len hp
    omega
  · intro d hd ha
    exact C40_stored_conforms_partial mem 0 len (e + 10) _ _ _ d r hd ha hm h64 (by omega) (by omega) (u16At_lt _ _) hsvc hp

end Wdns
