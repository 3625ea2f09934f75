import Verif.Lemmas.EdnsText
import Verif.Lemmas.TextEnd
import Verif.Lemmas.TextPrintable
import Verif.Props.ParseRdata

/-!
# Properties C42, C43, C61: rdata as text
-/

namespace Wdns
open Outcome Spec

theorem cstrOf_of {u : List UInt8} (h : ∀ b ∈ u, b ≠ 0) : cstrOf u = u := by
  unfold cstrOf
  induction u with
  | nil => rfl
  | cons a u ih =>
    rw [List.takeWhile_cons, if_pos (by simpa using h a (by simp)), ih fun b hb => h b (by simp [hb])]

theorem Spec.Printable.ne_zero {u : List UInt8} (h : Printable u) : ∀ b ∈ u, b ≠ 0 := by
  rintro b hb rfl
  have := (h 0 hb).1
  simp at this

/-! ## C42 -/

/-- **C42**, types whose layout the library knows: an accepted rdata is rendered as the presentation form of its fields
(`RdataToks`), its tokens separated by single spaces.  The text ends in `#` exactly when there was a parse error; this one
does not.  The memory of the rendering function is exactly the stored rdata, so `ok` says that nothing else is read.

Missing: SVCB and HTTPS with a parameter too long for the 16-bit sum of the parser (see `C42_svcparam_violation`), rdata
that decompresses to 65536 octets or more (the stored length is wrong then, C39), OPT (C61). -/
theorem C42_known_partial (mem : List UInt8) (p eop o rdlen ty cls : Nat) (d : Descr) (r : CRdata)
    (hd : recordDescr ty = some d) (ha : d.applies cls = true) (hopt : ty ≠ 41)
    (hm : eop ≤ mem.length) (h64 : eop < 2 ^ 64) (hp : p ≤ o) (hfit : o + rdlen ≤ eop) (hl : rdlen < 65536)
    (hsvc : ty = 64 ∨ ty = 65 → cls = 1 → ¬ LongSvc (mem.take eop) o rdlen)
    (h : parseRdata mem p eop o rdlen ty cls = ok r) (hlt : r.data.length < 65536) :
    ∃ toks, RdataToks d.types r.data toks ∧ rdataToStr r.data r.len ty cls = ok (spaced toks) ∧
      Printable (spaced toks) ∧ (spaced toks).getLast? ≠ some 35 := by
  have hc := C40_stored_conforms_partial mem p eop o rdlen ty cls d r hd ha hm h64 hp hfit hl hsvc h
  have hlen := (C39_length_iff mem p eop o rdlen ty cls r h).2.mpr hlt
  obtain ⟨toks, text, h1, h2, h3, h4⟩ :=
    rdataToUbuf_render (u := []) (mem := r.data) (cls := cls) hd ha hopt hc ⟨by simp, by simp⟩ hlt Clean.nil
  have hs := textOf_strip (u := []) h3 (Or.inl (by simp))
  have hpr := printable_spaced h2
  refine ⟨toks, h1, ?_, hpr, EndOK.spaced (endOK_rdata h1)⟩
  unfold rdataToStr
  rw [hlen, h4, ok_bind, hs, List.nil_append, cstrOf_of hpr.ne_zero]

/-- MX record at offset 5 with a compressed host name; the text of what was stored is `10 b.a.`. -/
example : parseRdata [7, 1, 97, 0, 9, 0, 10, 1, 98, 0xc0, 1, 3] 0 12 5 6 15 1 = ok ⟨7, [0, 10, 1, 98, 1, 97, 0]⟩ ∧
    rdataToStr [0, 10, 1, 98, 1, 97, 0] 7 15 1 = ok (ascii "10 b.a.") := by decide +kernel

/-- A TXT record with a quote and a control character. -/
example : parseRdata [3, 34, 10, 97, 0] 0 5 0 5 16 1 = ok ⟨5, [3, 34, 10, 97, 0]⟩ ∧
    rdataToStr [3, 34, 10, 97, 0] 5 16 1 = ok (ascii "\"\\\"\\010a\" \"\"") := by decide +kernel

/-- An HTTPS record: priority 1, target `.`, `alpn=h2`, `port=443`. -/
example : rdataToStr [0, 1, 0, 0, 1, 0, 3, 2, 104, 50, 0, 3, 0, 2, 1, 187] 16 65 1 =
    ok (ascii "1 . alpn=\"h2\" port=443") := by decide +kernel

/-- **C42** fails as stated: the parser accepts this SVCB rdata (key 5, length 65535), because the length of the parameter
is computed in 16 bits and wraps to 3; the renderer reports a parse error. -/
theorem C42_svcparam_violation :
    parseRdata [0, 1, 0, 0, 5, 255, 255, 0, 0, 0] 0 10 0 10 64 1 = ok ⟨10, [0, 1, 0, 0, 5, 255, 255, 0, 0, 0]⟩ ∧
    rdataToStr [0, 1, 0, 0, 5, 255, 255, 0, 0, 0] 10 64 1 = ok (ascii "1 . ech= ### PARSE ERROR ###") := by decide +kernel

theorem printable_generic (w : List UInt8) : Printable (genericText w) := by
  unfold genericText
  refine ((Printable.append (by decide) (printable_decText _)).append (by decide)).append ?_
  exact Printable.flatMap fun b _ => (printable_hexText _ _).append (by decide)

theorem rdataToUbuf_generic {u w extra : List UInt8} {ty cls : Nat} (hd : recordDescr ty = none) (hl : w.length < 65536) :
    rdataToUbuf u (w ++ extra) w.length ty cls = ok (u ++ genericText w) := by
  unfold rdataToUbuf
  rw [hd]
  simp only
  rw [decStr_eq (by omega) (by omega), ok_bind, rdN_ok (by simp), ok_bind, hexRun_eq _ (by omega)]
  simp [genericText, List.append_assoc]

/-- **C42**, types without a known layout: the generic form of RFC 3597. -/
theorem C42_generic (w extra : List UInt8) (ty cls : Nat) (hd : recordDescr ty = none) (hl : w.length < 65536) :
    rdataToStr (w ++ extra) w.length ty cls = ok (genericText w) := by
  unfold rdataToStr
  rw [rdataToUbuf_generic hd hl, ok_bind, List.nil_append, cstrOf_of (printable_generic w).ne_zero]

example : recordDescr 65280 = none ∧ rdataToStr [1, 2, 255] 3 65280 1 = ok (ascii "\\# 3 01 02 ff ") := by decide +kernel

/-- **C42**, a type whose layout the library knows for another class only: the text is empty (the rdata is lost). -/
theorem C42_other_class (mem : List UInt8) (rdlen ty cls : Nat) (d : Descr) (hd : recordDescr ty = some d)
    (ha : d.applies cls = false) : rdataToStr mem rdlen ty cls = ok [] := by
  unfold rdataToStr rdataToUbuf
  rw [hd]
  simp [ha, cstrOf]

example : ∃ d, recordDescr 1 = some d ∧ d.applies 3 = false := ⟨_, rfl, by decide⟩

/-! ## C43 -/

/-- **C43**: every character of a text returned by `wdns_rdata_to_str` is printable ASCII, or, for OPT records, a newline;
and the C string is the whole contents of the buffer (no NUL cuts it short).  For every memory contents, well-formed rdata
or not, whenever the function returns. -/
theorem C43_printable (mem : List UInt8) (rdlen ty cls : Nat) (s : List UInt8) (hl : rdlen < 65536)
    (h : rdataToStr mem rdlen ty cls = ok s) :
    (∀ b ∈ s, (32 ≤ b.toNat ∧ b.toNat ≤ 126) ∨ (ty = 41 ∧ b = 10)) ∧ rdataToUbuf [] mem rdlen ty cls = ok s := by
  unfold rdataToStr at h
  obtain ⟨u, hu, hs⟩ := bind_eq_ok.mp h
  have hu' : ∀ b ∈ u, (32 ≤ b.toNat ∧ b.toNat ≤ 126) ∨ (ty = 41 ∧ b = 10) := by
    obtain ⟨u'', ⟨t, rfl, ht⟩, h1⟩ := rdataToUbuf_ext (mem := mem) (ty := ty) (cls := cls) Clean.nil hl u hu
    have ht' : ∀ b ∈ u'', (32 ≤ b.toNat ∧ b.toNat ≤ 126) ∨ (ty = 41 ∧ b = 10) := by simpa [Txt] using ht
    rcases h1 with rfl | rfl
    · exact ht'
    · intro b hb
      refine ht' b ?_
      unfold stripLast at hb
      split at hb
      · exact List.dropLast_subset _ hb
      · exact hb
  have : cstrOf u = u := cstrOf_of (by
    rintro b hb rfl
    rcases hu' 0 hb with ⟨h, _⟩ | ⟨_, h⟩
    · simp at h
    · exact absurd h (by decide))
  rw [this, ok.injEq] at hs
  subst hs
  exact ⟨hu', hu⟩

/-- Bytes that would change the state of a terminal, in a name and in a string. -/
example : rdataToStr [0, 0, 2, 27, 91, 0, 1, 7, 0] 9 35 1 = ok (ascii "0 539  ### PARSE ERROR ###") := by decide +kernel
example : rdataToStr [2, 27, 91, 0] 4 5 1 = ok (ascii "\\027[.") := by decide +kernel

/-! ## C61 -/

theorem fmtU_parseError : fmtU Res.parseError.toNat = ascii "12" := by decide

theorem rdataToUbuf_opt {u w extra : List UInt8} {cls : Nat} (hu : Clean u) (hw : w ≠ []) :
    ∃ s, OptsText w s ∧ rdataToUbuf u (w ++ extra) w.length 41 cls = ok (u ++ s) := by
  have hwin : Win (w ++ extra) 0 w := ⟨by simp, by simp⟩
  obtain ⟨s, r, h1, h2, h3⟩ := tEdns_eq (mem := w ++ extra) (w.length + 1) w 0 u hwin (by omega) hu hw
  refine ⟨s, h1, ?_⟩
  have hd : recordDescr 41 = some ⟨0, [.ednsOptRdata]⟩ := by decide
  unfold rdataToUbuf
  rw [hd]
  have hl : ¬ ((w.length : Int) = 0) := by
    have := List.length_pos_iff.mpr hw
    omega
  simp only [show Descr.applies ⟨0, [.ednsOptRdata]⟩ cls = true from rfl, if_true, tFields, tField, if_neg hl, Int.toNat_natCast,
    h2, ok_bind]
  rcases h3 with ⟨src, rfl, h4⟩ | ⟨u', h0, rfl, h4⟩ | ⟨u', h0, rfl, h4⟩
  · simp only [ok_bind]
    congr 1
    unfold stripLast
    rw [if_neg]
    rw [List.getLast?_append]
    cases hs : s.getLast? with
    | none => exact absurd (List.getLast?_eq_none_iff.mp hs) (optsText_ne h1)
    | some c => rw [hs] at h4; simpa using h4
  · simp only [ok_bind]
    rw [uAddCstr_clean h0, h4]
  · simp only [ok_bind]
    rw [uAddCstr_clean h0, ← h4, fmtU_parseError]
    rfl

theorem optsText_nonzero {w s : List UInt8} (h : OptsText w s) : ∀ b ∈ s, b ≠ 0 := by
  have key : ∀ {t : List UInt8}, Printable t → ∀ b ∈ t, b ≠ 0 := fun h => h.ne_zero
  induction h with
  | last _ _ h => exact key (((printable_optLabel _).append (by decide)).append (printable_optText h).1)
  | more _ _ h _ _ ih =>
    intro b hb
    rcases List.mem_append.mp hb with hb | hb
    · rcases List.mem_append.mp hb with hb | hb
      · exact key (((printable_optLabel _).append (by decide)).append (printable_optText h).1) b hb
      · simp only [List.mem_singleton] at hb; subst hb; decide
    · exact ih b hb
  | one => exact key (by decide)
  | short => exact key ((printable_optLabel _).append (by decide))
  | cut => exact key ((printable_optLabel _).append (by decide))
  | bad => exact key ((printable_optLabel _).append (by decide))

/-- **C61**: for every rdata of an OPT record, well-formed or not, rendering is defined, reads only the rdata, and gives the
text of its options (`OptsText`): each on a line of its own, in order; a client subnet with its address filled up with zero
octets and both prefix lengths; with a marker at the first malformed option. -/
theorem C61_options (w extra : List UInt8) (cls : Nat) (hw : w ≠ []) :
    ∃ s, OptsText w s ∧ rdataToStr (w ++ extra) w.length 41 cls = ok s := by
  obtain ⟨s, h1, h2⟩ := rdataToUbuf_opt (u := []) (extra := extra) (cls := cls) Clean.nil hw
  refine ⟨s, h1, ?_⟩
  unfold rdataToStr
  rw [h2, ok_bind, List.nil_append, cstrOf_of (optsText_nonzero h1)]

/-- **C61**: no options. -/
theorem C61_no_options (mem : List UInt8) (cls : Nat) : rdataToStr mem 0 41 cls = ok [] := by
  unfold rdataToStr rdataToUbuf
  rw [show recordDescr 41 = some ⟨0, [.ednsOptRdata]⟩ from by decide]
  simp [Descr.applies, tFields, stripLast, cstrOf]

/-- **C61**: the client subnet of RFC 7871, spelled out, for IPv4: `a` are the octets that are present. -/
theorem C61_subnet4 (a : List UInt8) (source scope : UInt8) (cls : Nat) (ha : a.length ≤ 4) :
    rdataToStr ([0, 8, 0, UInt8.ofNat (4 + a.length), 0, 1, source, scope] ++ a) (8 + a.length) 41 cls =
      ok (ascii "CLIENT-SUBNET: " ++ quadText (a ++ List.replicate (4 - a.length) 0) ++ ascii "/" ++
        decText source.toNat ++ ascii "/" ++ decText scope.toNat) := by
  obtain ⟨s, h1, h2⟩ := C61_options ([0, 8, 0, UInt8.ofNat (4 + a.length), 0, 1, source, scope] ++ a) [] cls (by simp)
  rw [List.append_nil] at h2
  rw [show 8 + a.length = ([0, 8, 0, UInt8.ofNat (4 + a.length), 0, 1, source, scope] ++ a : List UInt8).length from by
    simp; omega, h2]
  congr 1
  refine optsText_unique h1 _ ?_
  have h := OptsText.last (code := 8) (data := [0, 1, source, scope] ++ a)
    (t := quadText (padTo 4 a) ++ (ascii "/" ++ decText source.toNat ++ ascii "/" ++ decText scope.toNat))
    (by omega) (by simp; omega) (by simp [optText, subnetText, be16, ha])
  have e : net16 ([0, 1, source, scope] ++ a).length = [0, UInt8.ofNat (4 + a.length)] := by
    simp only [net16, List.length_append, List.length_cons, List.length_nil]
    rw [Nat.div_eq_of_lt (by omega), Nat.mod_eq_of_lt (by omega)]
    rfl
  rw [e] at h
  simpa [net16, optLabel, padTo, ascii] using h

/-- 192.0.2.0/24 with scope 0, then an extended error `15 (Blocked)` with text. -/
example : rdataToStr [0, 8, 0, 7, 0, 1, 24, 0, 192, 0, 2, 0, 15, 0, 4, 0, 15, 104, 10] 19 41 512 =
    ok (ascii "CLIENT-SUBNET: 192.0.2.0/24/0\nEDE: 15 (Blocked): (h.)") := by decide +kernel

/-- A truncated option, and an address longer than its family allows. -/
example : rdataToStr [0, 10, 0, 2, 1] 5 41 512 = ok (ascii "OPT=10: ### PARSE ERROR ###") ∧
    rdataToStr [0, 8, 0, 9, 0, 1, 24, 0, 1, 2, 3, 4, 5] 13 41 512 =
      ok (ascii "CLIENT-SUBNET:  ### PARSE ERROR #12 ###") := by decide +kernel

end Wdns
