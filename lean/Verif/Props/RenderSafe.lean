import Verif.Lemmas.RenderSafe2
import Verif.Props.RdataText

/-! # C74: rendering arbitrary octets as rdata -/

namespace Wdns
open Outcome Spec

theorem rdataToUbuf_generic_good {w : List UInt8} {ty cls : Nat} (hd : recordDescr ty = none) (hl : w.length < 65536) :
    ∃ u, rdataToUbuf [] w w.length ty cls = ok u ∧ EndOK u := by
  unfold rdataToUbuf
  rw [hd]
  simp only
  rw [decStr_eq (by omega) (by omega), ok_bind, rdN_ok (by omega), ok_bind, hexRun_eq false (by omega)]
  refine ⟨_, rfl, ?_⟩
  refine EndOK.append (.snoc (by decide)) ?_
  generalize (w.drop 0).take w.length = l
  induction l with
  | nil => decide
  | cons b l ih => rw [List.flatMap_cons]; exact (EndOK.snoc (by decide)).append ih

/-- The three ways a call can go. -/
theorem rdataToStr_tri (w : List UInt8) (ty cls : Nat) (hl : w.length < 65536) :
    (∃ s, rdataToStr w w.length ty cls = ok s ∧ s.getLast? ≠ some 35 ∧
      ∀ d, recordDescr ty = some d → d.applies cls = true → Shown d.types w ∧ ¬ Dangling d.types w) ∨
    (∃ s d, rdataToStr w w.length ty cls = ok s ∧ ascii "###" <:+ s ∧ recordDescr ty = some d ∧ d.applies cls = true ∧
      ¬ Shown d.types w ∧ ¬ Dangling d.types w) ∨
    (∃ d, rdataToStr w w.length ty cls = ub ∧ recordDescr ty = some d ∧ d.applies cls = true ∧ Dangling d.types w) := by
  have fin : ∀ u, rdataToUbuf [] w w.length ty cls = ok u → rdataToStr w w.length ty cls = ok u := by
    intro u h
    have h1 : rdataToStr w w.length ty cls = ok (cstrOf u) := by unfold rdataToStr; rw [h]; rfl
    have := (C43_printable w w.length ty cls _ hl h1).2
    rw [h] at this
    rw [h1, ← ok.inj this]
  cases hd : recordDescr ty with
  | none =>
    obtain ⟨u, h, g⟩ := rdataToUbuf_generic_good (cls := cls) hd hl
    exact Or.inl ⟨u, fin u h, g, fun d hx => by simp at hx⟩
  | some d =>
    by_cases ha : d.applies cls = true
    · have hu : rdataToUbuf [] w w.length ty cls = (tFields w d.types ⟨0, w.length, []⟩ >>= fun r => match r with
        | .go st => ok (Spec.stripLast 32 st.u)
        | .bad none u => ok (uAddCstr u (ascii " ### PARSE ERROR ###"))
        | .bad (some r) u => ok (uAddCstr u (ascii " ### PARSE ERROR #" ++ fmtU r.toNat ++ ascii " ###"))) := by
        unfold rdataToUbuf
        rw [hd]
        simp only [ha, if_true]
        rfl
      rcases tFields_tri (mem := w) d.types 0 w [] ⟨by omega, by simp⟩ hl Good.nil with ⟨h1, h2, st, h3, g⟩ | ⟨h1, h2, r, u', h3⟩ |
        ⟨h1, h2, h3⟩
      · refine Or.inl ⟨stripLast 32 st.u, fin _ (by rw [hu, h3]; rfl), g.2.2, ?_⟩
        intro d' hd' _
        cases hd'
        exact ⟨h1, h2⟩
      · right; left
        cases r with
        | none =>
          refine ⟨uAddCstr u' (ascii " ### PARSE ERROR ###"), d, fin _ (by rw [hu, h3]; rfl), ?_, rfl, ha, h1, h2⟩
          exact ⟨stripLast 0 u' ++ ascii " ### PARSE ERROR ", by unfold uAddCstr; simp [ascii]⟩
        | some r =>
          refine ⟨uAddCstr u' (ascii " ### PARSE ERROR #" ++ fmtU r.toNat ++ ascii " ###"), d, fin _ (by rw [hu, h3]; rfl), ?_, rfl, ha, h1, h2⟩
          exact ⟨stripLast 0 u' ++ (ascii " ### PARSE ERROR #" ++ fmtU r.toNat ++ ascii " "), by unfold uAddCstr; simp [ascii]⟩
      · right; right
        refine ⟨d, ?_, rfl, ha, h1⟩
        unfold rdataToStr
        rw [hu, h3 (by omega)]
        rfl
    · refine Or.inl ⟨[], fin [] ?_, by decide, fun d' hd' ha' => ?_⟩
      · unfold rdataToUbuf
        rw [hd]
        simp only [ha]
        rfl
      · cases hd'
        exact absurd ha' ha

/-- **C74**: for arbitrary octets `w` handed to `wdns_rdata_to_str` as rdata of any type and class, the call returns a text
without reading outside `w`, unless the type has a layout and `w` is such that a domain name is due and only labels without
a root label are left; in that case it reads past the end. -/
theorem C74_defined (w : List UInt8) (ty cls : Nat) (hl : w.length < 65536) :
    ((∃ s, rdataToStr w w.length ty cls = ok s) ↔
      ∀ d, recordDescr ty = some d → d.applies cls = true → ¬ Dangling d.types w) ∧
    ((∃ d, recordDescr ty = some d ∧ d.applies cls = true ∧ Dangling d.types w) → rdataToStr w w.length ty cls = ub) := by
  rcases rdataToStr_tri w ty cls hl with ⟨s, h1, _, h2⟩ | ⟨s, d, h1, _, h2, h3, _, h4⟩ | ⟨d, h1, h2, h3, h4⟩
  · refine ⟨⟨fun _ d hd ha => (h2 d hd ha).2, fun _ => ⟨s, h1⟩⟩, ?_⟩
    rintro ⟨d, hd, ha, hx⟩
    exact absurd hx (h2 d hd ha).2
  · refine ⟨⟨fun _ d' hd ha => ?_, fun _ => ⟨s, h1⟩⟩, ?_⟩
    · rw [h2] at hd; cases hd; exact h4
    · rintro ⟨d', hd, ha, hx⟩
      rw [h2] at hd; cases hd; exact absurd hx h4
  · refine ⟨⟨fun ⟨s, hs⟩ => ?_, fun h => absurd h4 (h d h2 h3)⟩, fun _ => h1⟩
    rw [h1] at hs; simp at hs

/-- **C74**: record types without a domain name in their layout can be rendered whatever the octets are. -/
theorem C74_no_names (w : List UInt8) (ty cls : Nat) (hl : w.length < 65536)
    (hn : ∀ d, recordDescr ty = some d → ∀ t ∈ d.types, ¬ IsName t) : ∃ s, rdataToStr w w.length ty cls = ok s := by
  rw [(C74_defined w ty cls hl).1]
  intro d hd _ hx
  have hn := hn d hd
  generalize d.types = ts at hn hx
  induction hx with
  | here h _ => exact hn _ (by simp) h
  | later _ _ _ ih => exact ih (by rename_i f rest _ _ _ ; simp at hl; omega) (fun t ht => hn t (by simp [ht]))

/-- A case of `C74_no_names`: an AAAA rdata that is too short. -/
example : ∃ s, rdataToStr [1, 2, 3] 3 28 1 = ok s := C74_no_names [1, 2, 3] 28 1 (by decide)
  (by intro d hd; cases hd; intro t ht; simp only [List.mem_singleton] at ht; subst ht; exact fun h => h.elim)

/-- **C74**: the text ends with the marker `###` exactly for rdata that cannot be walked through along the layout of its type.
So a text with the marker never stands for well-formed rdata, and malformed rdata never passes without the marker. -/
theorem C74_marker (w : List UInt8) (ty cls : Nat) (s : List UInt8) (hl : w.length < 65536) (h : rdataToStr w w.length ty cls = ok s) :
    ascii "###" <:+ s ↔ ∃ d, recordDescr ty = some d ∧ d.applies cls = true ∧ ¬ Shown d.types w := by
  rcases rdataToStr_tri w ty cls hl with ⟨s', h1, hg, h2⟩ | ⟨s', d, h1, hg, h2, h3, h4, _⟩ | ⟨d, h1, h2, h3, h4⟩
  · rw [h1] at h; cases h
    constructor
    · rintro ⟨x, rfl⟩
      exact absurd (by simp [ascii]) hg
    · rintro ⟨d, hd, ha, hx⟩
      exact absurd (h2 d hd ha).1 hx
  · rw [h1] at h; cases h
    exact ⟨fun _ => ⟨d, h2, h3, h4⟩, fun _ => hg⟩
  · rw [h1] at h; cases h

theorem windows_any {f : List UInt8} (h : Windows f) : AnyWindows f := by
  induction h with
  | nil => exact .nil
  | cons _ _ h1 _ ih => exact .cons h1 ih

theorem params_shown {f : List UInt8} (h : Params f) : ParamsShown f := by
  induction h with
  | nil => exact .nil
  | @cons k0 k1 l0 l1 v rest h1 h2 _ ih =>
    refine .cons h1 ?_ ih
    unfold SvcValueOK at h2
    unfold SvcShown
    split at h2 <;> simp_all

/-- **C74**: well-formed rdata can be walked through, and no name in it is cut off: it is rendered, without the marker. -/
theorem C74_conforming {ts : List Rdf} {w : List UInt8} (h : Conforms ts w) (ho : Rdf.ednsOptRdata ∉ ts) : Shown ts w ∧ ¬ Dangling ts w := by
  induction h with
  | done => exact ⟨.done, fun h => not_dangling_nil h rfl⟩
  | @name t ts n rest ht hn _ ih =>
    have hT : Taken t (wire n) rest := by
      cases t <;> first | exact ⟨n, hn, rfl⟩ | exact absurd ht (by simp [IsName])
    have hne : wire n ++ rest ≠ [] := by simp [wire_ne_nil]
    rw [shown_cons hne hT, dangling_cons hne hT]
    exact ih (fun h => ho (by simp [h]))
  | @field t ts f rest hf hne hterm _ ih =>
    have hT : Taken t f rest := by
      cases t
      case name | uname => exact absurd hf (by simp [FieldOK])
      case bytes | bytesB64 | bytesStr => exact hterm trivial
      case int8 | int16 | int32 | rrtype | ipv4 | ipv6 | eui48 | eui64 | string | salt | hash | ipv6prefix => exact hf
      case repstring => exact ⟨hf, hterm trivial⟩
      case svcparams => exact ⟨params_shown hf, hterm trivial⟩
      case typeBitmap =>
        have hr := hterm trivial
        subst hr
        exact ⟨windows_any hf, by simpa using hne, by simp⟩
      case ednsOptRdata => exact absurd (by simp) ho
    rw [shown_cons hne hT, dangling_cons hne hT]
    exact ih (fun h => ho (by simp [h]))

theorem tField_step {mem : List UInt8} {t : Rdf} {src n : Nat} {w u : List UInt8} (hn : ¬ IsName t)
    (hT : ∀ f rest, Taken t f rest ↔ f.length = n) (hw : Win mem src w) (h : n < w.length) (hl : w.length < 65536) (hu : Good u) :
    ∃ u', tField mem t ⟨src, w.length, u⟩ = ok (.go ⟨src + n, (w.drop n).length, u'⟩) ∧ Good u' ∧ Win mem (src + n) (w.drop n) := by
  have hne : w ≠ [] := by rintro rfl; simp at h
  rcases tField_tri (t := t) hw hne hl hu with ⟨f, rest, src', u', rfl, h1, h2, e, g⟩ | ⟨h1, _⟩ | ⟨h1, _⟩
  · have hf := (hT f rest).mp h1
    have hr : rest ≠ [] := by rintro rfl; rw [List.append_nil] at h; omega
    have hd : (f ++ rest).drop n = rest := by rw [← hf, List.drop_left]
    rw [hd]
    refine ⟨u', ?_, g, ?_⟩
    · rw [e, h2 hr, hf]
    · rw [← hf]; exact hw.right
  · exact absurd ((hT _ _).mpr (by simp; omega)) (h1 (w.take n) (w.drop n) (List.take_append_drop _ _).symm)
  · exact absurd h1 hn

/-- **C74, violations.**  An NS record whose two octets of rdata are a label without a root label makes the call read past the
end.  For an RRSIG record it is worse: when the octet after the rdata happens to be zero, the remaining length becomes -1, and
the signature is taken to be the next 65535 octets, whatever they are (`x`). -/
theorem C74_overread_violations :
    rdataToStr [1, 97] 2 2 1 = ub ∧
    (∀ x : List UInt8, x.length < 65535 → rdataToStr (List.replicate 18 0 ++ [1, 97, 0] ++ x) 20 46 1 = ub) := by
  refine ⟨by decide +kernel, fun x hx => ?_⟩
  have hd : recordDescr 46 = some ⟨0, [.rrtype, .int8, .int8, .int32, .int32, .int32, .int16, .uname, .bytesB64]⟩ := by decide
  have h : ∃ u, tFields (List.replicate 18 0 ++ [1, 97, 0] ++ x) [.rrtype, .int8, .int8, .int32, .int32, .int32, .int16, .uname, .bytesB64]
      ⟨0, 20, []⟩ = tFields (List.replicate 18 0 ++ [1, 97, 0] ++ x) [.bytesB64] ⟨21, -1, u⟩ := by
    generalize hmem : List.replicate 18 0 ++ [1, 97, 0] ++ x = mem
    have w0 : Win mem 0 (List.replicate 18 0 ++ [1, 97]) := by
      refine ⟨by omega, 0 :: x, ?_⟩
      rw [← hmem]; simp
    have go : ∀ {t ts src n w u}, (¬ IsName t) → (∀ f rest, Taken t f rest ↔ f.length = n) → Win mem src w → n < w.length →
        w.length ≤ 20 → Good u → ∃ u', tFields mem (t :: ts) ⟨src, (w.length : Nat), u⟩ =
          tFields mem ts ⟨src + n, ((w.drop n).length : Nat), u'⟩ ∧ Good u' ∧ Win mem (src + n) (w.drop n) := by
      intro t ts src n w u hn hT hw h hl hu
      obtain ⟨u', e, g, hw'⟩ := tField_step hn hT hw h (by omega) hu
      refine ⟨u', ?_, g, hw'⟩
      rw [tFields, if_neg (by simp only; omega), e, ok_bind]
    obtain ⟨u1, e1, g1, w1⟩ := go (t := .rrtype) (ts := [.int8, .int8, .int32, .int32, .int32, .int16, .uname, .bytesB64]) nofun
      (fun _ _ => Iff.rfl) w0 (by decide) (by decide) Good.nil
    obtain ⟨u2, e2, g2, w2⟩ := go (t := .int8) (ts := [.int8, .int32, .int32, .int32, .int16, .uname, .bytesB64]) nofun
      (fun _ _ => Iff.rfl) w1 (by decide) (by decide) g1
    obtain ⟨u3, e3, g3, w3⟩ := go (t := .int8) (ts := [.int32, .int32, .int32, .int16, .uname, .bytesB64]) nofun
      (fun _ _ => Iff.rfl) w2 (by decide) (by decide) g2
    obtain ⟨u4, e4, g4, w4⟩ := go (t := .int32) (ts := [.int32, .int32, .int16, .uname, .bytesB64]) nofun
      (fun _ _ => Iff.rfl) w3 (by decide) (by decide) g3
    obtain ⟨u5, e5, g5, w5⟩ := go (t := .int32) (ts := [.int32, .int16, .uname, .bytesB64]) nofun
      (fun _ _ => Iff.rfl) w4 (by decide) (by decide) g4
    obtain ⟨u6, e6, g6, w6⟩ := go (t := .int32) (ts := [.int16, .uname, .bytesB64]) nofun
      (fun _ _ => Iff.rfl) w5 (by decide) (by decide) g5
    obtain ⟨u7, e7, g7, w7⟩ := go (t := .int16) (ts := [.uname, .bytesB64]) nofun
      (fun _ _ => Iff.rfl) w6 (by decide) (by decide) g6
    refine ⟨uAddCstr u7 [97, 46] ++ [32], ?_⟩
    rw [show (20 : Int) = (((List.replicate 18 (0 : UInt8) ++ [1, 97]).length : Nat) : Int) from rfl, e1, e2, e3, e4, e5, e6, e7]
    have hl : lenUname mem 18 20 = ok 3 := by rw [← hmem]; rfl
    have hdt : domainToStr preslenName (mem.drop 18) 3 = ok (3, [97, 46]) := by rw [← hmem]; rfl
    show tFields mem [.uname, .bytesB64] ⟨18, 2, u7⟩ = _
    rw [tFields, if_neg (by simp)]
    simp only [tField]
    rw [show ((18 : Nat) + (2 : Int)).toNat = 20 from rfl, hl]
    simp only [hdt, ok_bind]
    rfl
  obtain ⟨u, h⟩ := h
  have hub : tFields (List.replicate 18 0 ++ [1, 97, 0] ++ x) [.bytesB64] ⟨21, -1, u⟩ = ub := by
    have hr : rdN (List.replicate 18 0 ++ [1, 97, 0] ++ x) 21 65535 = ub := by
      unfold rdN
      rw [if_neg (by simp; omega)]
    have e : ((-1 : Int) % 65536).toNat = 65535 := by decide
    rw [tFields, if_neg (by simp)]
    simp only [tField, e, hr]
    rfl
  unfold rdataToStr rdataToUbuf
  rw [hd]
  simp only [Descr.applies]
  rw [show ((20 : Nat) : Int) = 20 from rfl, h, hub]
  rfl

/-! Concrete cases: octets of all three kinds exist. -/

example : rdataToStr [0, 10, 3, 99] 4 15 1 = ok (ascii "10  ### PARSE ERROR #3 ###") := by decide +kernel
example : rdataToStr [5, 6, 7, 8, 9] 5 1 1 = ok (ascii "5.6.7.8") := by decide +kernel
example : Dangling [.int16, .name] [0, 10, 1, 97] :=
  .later (f := [0, 10]) (by simp) rfl (.here trivial ⟨[[97]], by simp, by simp [LabelOK], rfl, by decide⟩)

end Wdns
