import Verif.Lemmas.TextStable
import Verif.Props.ScanGrammar
import Verif.Props.RoundTrip
import Verif.Props.ParseRdata

/-!
# C77: a text that is accepted as rdata denotes rdata that the rest of the library handles

The octets `wdns_str_to_rdata` gives for a text are accepted by the message parser wherever they stand in a message and stored
unchanged; they can be rendered, and the rendered text denotes the same octets.
-/

namespace Wdns
open Outcome Spec

/-- The rdata `r` is handled by the rest of the library: the parser accepts it at every place of every message and stores it as it is,
it has a text, and that text reads back as `r`. -/
def Usable (ty cls : Nat) (r : List UInt8) : Prop :=
  (∀ mem p eop o, eop ≤ mem.length → eop < 2 ^ 64 → p ≤ o → o ≤ eop → r <+: (mem.take eop).drop o →
    parseRdata mem p eop o r.length ty cls = ok ⟨r.length, r⟩) ∧
  ∃ text, rdataToStr r r.length ty cls = ok text ∧ strToRdata text ty cls = ok r

theorem Win.of_take {mem w : List UInt8} {n o : Nat} (h : Win (mem.take n) o w) : Win mem o w := by
  have h1 := h.1
  simp only [List.length_take] at h1
  refine ⟨by omega, h.2.trans ?_⟩
  rw [List.drop_take]
  exact List.take_prefix _ _

theorem scanned_opt {s r : List UInt8} (h : Scanned [.ednsOptRdata] s r) : r = [] := by
  cases h with
  | stop => rfl
  | field _ _ _ h4 =>
    cases h4 with
    | name h => simp at h
    | int h => simp at h

/-- **C77, partial.** For a record type with a known layout: every accepted text, unless it is irregular (`Spec/TextStable.lean`), denotes
rdata that is usable.  Missing: the irregular texts, for which it is false (`C77_violations`); rdata of 65536 octets or more does not
fit a message. -/
theorem C77_text_usable_partial (s r : List UInt8) (ty cls : Nat) (d : Descr) (hd : recordDescr ty = some d) (ha : d.applies cls = true)
    (h0 : 0 ∉ s) (h : strToRdata s ty cls = ok r) (hl : r.length < 65536) (hi : ¬ Irregular d.types s) : Usable ty cls r := by
  have hs := (C73_rdata_exact s r ty cls d hd ha h0).mp h
  have he := scanned_exact hs (descr_good hd) hl hi
  have hc := conforms_of_exact he
  refine ⟨fun mem p eop o h1 h2 h3 h4 h5 => C38_uncompressed_verbatim mem p eop o ty cls d r hd ha hc h1 h2 h3 h4 h5 hl, ?_⟩
  by_cases hopt : ty = 41
  · subst hopt
    obtain rfl : d = ⟨0, [.ednsOptRdata]⟩ := by
      have : recordDescr 41 = some ⟨0, [.ednsOptRdata]⟩ := rfl
      rw [this] at hd; exact (Option.some.inj hd).symm
    obtain rfl := scanned_opt hs
    refine ⟨[], rfl, ?_⟩
    exact (C73_rdata_exact [] [] 41 cls _ hd ha (by simp)).mpr (.stop (by simp))
  · obtain ⟨toks, text, h1, h2, h3, h4⟩ :=
      rdataToUbuf_render (u := []) (mem := r) (cls := cls) hd ha hopt hc ⟨by simp, by simp⟩ hl Clean.nil
    have hst := textOf_strip (u := []) h3 (Or.inl (by simp))
    have hpr := printable_spaced h2
    obtain ⟨p', h5⟩ := fields_scan h1 he (descr_good hd) (some (spaced toks)) _ [] At.some (Or.inr rfl)
    refine ⟨spaced toks, ?_, strToRdata_fields hd ha (by rw [h5, List.nil_append])⟩
    unfold rdataToStr
    rw [h4, ok_bind, hst, List.nil_append, cstrOf_of hpr.ne_zero]

/-- **C77.** For a record type without a known layout every accepted text denotes usable rdata. -/
theorem C77_generic (s r : List UInt8) (ty cls : Nat) (hd : recordDescr ty = none) (h : strToRdata s ty cls = ok r) : Usable ty cls r := by
  obtain ⟨_, _, _, _, _, _, _, _, _, _, hl⟩ := (C73_generic_exact s r ty cls hd).mp h
  have hl : r.length < 65536 := by rw [hl]; omega
  have ho : Opaque ty cls := fun d h => by rw [hd] at h; cases h
  refine ⟨fun mem p eop o h1 h2 h3 h4 h5 => ?_, C46_generic_round_trip r ty cls hd hl⟩
  exact parseRdata_opaque ho (Win.of_take ⟨by simp; omega, h5⟩) hl

/-- **C77.** A record type of class IN in another class: every text is accepted and gives empty rdata, which is usable. -/
theorem C77_other_class (s r : List UInt8) (ty cls : Nat) (d : Descr) (hd : recordDescr ty = some d) (ha : d.applies cls = false)
    (h : strToRdata s ty cls = ok r) : Usable ty cls r := by
  rw [C73_other_class s ty cls d hd ha, ok.injEq] at h
  subst h
  have ho : Opaque ty cls := fun d' h => by rw [hd] at h; cases h; exact ha
  refine ⟨fun mem p eop o h1 h2 h3 h4 h5 => ?_, [], ?_, ?_⟩
  · exact parseRdata_opaque ho (Win.of_take ⟨by simp; omega, h5⟩) (by simp)
  · exact C42_other_class [] 0 ty cls d hd ha
  · exact C73_other_class [] ty cls d hd ha

/-- Cases of `C77_generic` and `C77_other_class`. -/
example : Usable 65280 1 [1, 2] ∧ Usable 1 3 [] :=
  ⟨C77_generic (ascii "\\# 2 01 02") _ 65280 1 (by decide) (by decide +kernel), C77_other_class (ascii "x") _ 1 3 _ rfl (by decide) (by decide +kernel)⟩

theorem labelReads_len {f s l} (h : LabelReads f s l) : l.length ≤ s.length := by
  induction h <;> simp_all <;> omega

theorem labelsRead_len {f s n} (h : LabelsRead f s n) : ∀ l ∈ n, l.length ≤ s.length := by
  induction h with
  | one h1 => have := labelReads_len h1; simpa using this
  | oneDot h1 => have := labelReads_len h1; simp; omega
  | cons h1 _ _ ih =>
    have := labelReads_len h1
    intro l hl
    rcases List.mem_cons.mp hl with rfl | hl
    · simp; omega
    · have := ih l hl; simp; omega

/-- Texts without long words, for layouts without service parameters and A6 prefixes, are regular. -/
theorem regular_of_short {ts : List Rdf} {s : List UInt8} (h : Irregular ts s) :
    (∀ t ∈ ts, t ≠ .svcparams ∧ t ≠ .ipv6prefix) →
      ∃ a tok b, s = a ++ tok ++ b ∧ (∀ c ∈ tok, ¬ Separator c) ∧ 63 < tok.length := by
  induction h with
  | @label t ts b s tok rest n h1 h2 h3 h4 h5 =>
    intro _
    obtain ⟨l, hl, h63⟩ := h5
    have : l.length ≤ tok.length := by
      rcases h4 with ⟨-, rfl⟩ | h4
      · simp at hl
      · exact labelsRead_len h4 l hl
    refine ⟨b, tok, rest, by rw [h3.1, List.append_assoc], h3.2.1, by omega⟩
  | svc => intro h; exact absurd rfl (h .svcparams (by simp)).1
  | prefix128 => intro h; exact absurd rfl (h .ipv6prefix (by simp)).2
  | @later t ts b' s f rest h1 h2 h3 h4 _ ih =>
    intro h
    obtain ⟨a, tok, b, rfl, k2, k3⟩ := ih fun t ht => h t (by simp [ht])
    obtain ⟨x, rfl⟩ := fieldReads_suffix h4
    exact ⟨b' ++ x ++ a, tok, b, by simp, k2, k3⟩

/-- **C77**, for texts that are easily seen to be regular: every accepted text without words of more than 63 characters, for every
record type but A6, SVCB and HTTPS. -/
theorem C77_short_words (s r : List UInt8) (ty cls : Nat) (hty : ty ∉ [38, 64, 65]) (h0 : 0 ∉ s) (h : strToRdata s ty cls = ok r)
    (hl : r.length < 65536) (hw : ∀ a tok b, s = a ++ tok ++ b → (∀ c ∈ tok, ¬ Separator c) → tok.length ≤ 63) : Usable ty cls r := by
  cases hd : recordDescr ty with
  | none => exact C77_generic s r ty cls hd h
  | some d =>
    by_cases ha : d.applies cls = true
    · refine C77_text_usable_partial s r ty cls d hd ha h0 h hl fun hi => ?_
      have hall : ∀ ty < 258, ty ∉ [38, 64, 65] → ∀ d ∈ recordDescr ty, ∀ t ∈ d.types, t ≠ .svcparams ∧ t ≠ .ipv6prefix := by
        decide +kernel
      obtain ⟨a, tok, b, e1, e2, e3⟩ := regular_of_short hi (hall ty (recordDescr_lt hd) hty d hd)
      have := hw a tok b e1 e2
      omega
    · exact C77_other_class s r ty cls d hd (by simpa using ha) h

/-- **C77**, for every accepted text of a type without names, service parameters and A6 prefixes. -/
theorem C77_nameless (s r : List UInt8) (ty cls : Nat) (d : Descr) (hd : recordDescr ty = some d)
    (ht : ∀ t ∈ d.types, ¬ IsName t ∧ t ≠ .svcparams ∧ t ≠ .ipv6prefix) (h0 : 0 ∉ s) (h : strToRdata s ty cls = ok r)
    (hl : r.length < 65536) : Usable ty cls r := by
  by_cases ha : d.applies cls = true
  · refine C77_text_usable_partial s r ty cls d hd ha h0 h hl fun hi => ?_
    clear h ha hd
    generalize d.types = ts at hi ht
    induction hi with
    | label _ h2 => exact (ht _ (by simp)).1 h2
    | svc => exact (ht _ (by simp)).2.1 rfl
    | prefix128 => exact (ht _ (by simp)).2.2 rfl
    | later _ _ _ h4 _ ih =>
      obtain ⟨x, rfl⟩ := fieldReads_suffix h4
      exact ih (fun h => h0 (by simp [h])) fun t h => ht t (by simp [h])
  · exact C77_other_class s r ty cls d hd (by simpa using ha) h

/-- An MX record: the text is accepted, and `C77_short_words` applies. -/
example : Usable 15 1 [0, 10, 1, 97, 1, 98, 0] := by
  refine C77_short_words (ascii " 10 \t a.b") _ 15 1 (by decide) (by decide) (by decide +kernel) (by decide) ?_
  intro a tok b h _
  have := congrArg List.length h
  simp only [List.length_append] at this
  have h2 : (ascii " 10 \t a.b").length = 9 := by decide
  omega

/-- A DS record with an overlong key tag is refused, one with white space in the digest is accepted. -/
example : Usable 43 1 [0, 1, 5, 2, 171, 205] :=
  C77_nameless (ascii "1 5 2 abcd") _ 43 1 _ rfl (by decide) (by decide) (by decide +kernel) (by decide)

/-- A text with an irregular name. -/
example : Irregular [.name] (List.replicate 64 97) := by
  refine .label (b := []) (tok := List.replicate 64 97) (rest := []) (n := [List.replicate 64 97]) (by simp) trivial ?_ ?_ ⟨List.replicate 64 97, List.mem_singleton.mpr rfl, by decide⟩
  · refine ⟨(List.append_nil _).symm, ?_, by simp⟩
    intro c hc
    rw [List.eq_of_mem_replicate hc]
    decide
  · refine Or.inr (.one ?_ (by decide))
    have : ∀ n, LabelReads id (List.replicate n 97) (List.replicate n 97) := by
      intro n
      induction n with
      | zero => exact .nil
      | succ n ih => rw [List.replicate_succ]; exact .plain (by decide) (by decide) ih
    exact this 64

/-- **C77** (violated): accepted texts whose rdata is not usable.  A label of 64 octets: the parser refuses the rdata.  `alpn` with an
empty last id: the length is one too small and the parser refuses the rdata.  `ech` with an empty value, or one of 190 octets: its own
text is not read back.  An A6 prefix of length 128 without a name: likewise. -/
theorem C77_violations :
    strToRdata (List.replicate 64 97) 2 1 = ok (64 :: List.replicate 64 97 ++ [0]) ∧
    parseRdata (64 :: List.replicate 64 97 ++ [0]) 0 66 0 66 2 1 = err .invalidLengthOctet ∧
    strToRdata (ascii "1 . alpn=\"h2,\"") 64 1 = ok [0, 1, 0, 0, 1, 0, 3, 2, 104, 50, 0] ∧
    parseRdata [0, 1, 0, 0, 1, 0, 3, 2, 104, 50, 0] 0 11 0 11 64 1 = err .parseError ∧
    strToRdata (ascii "1 . ech=!") 64 1 = ok [0, 1, 0, 0, 5, 0, 0] ∧
    rdataToStr [0, 1, 0, 0, 5, 0, 0] 7 64 1 = ok (ascii "1 . ech=") ∧ strToRdata (ascii "1 . ech=") 64 1 = err .parseError ∧
    strToRdata (ascii "1 . ech=" ++ List.replicate 255 65) 64 1 = ok ([0, 1, 0, 0, 5, 0, 191] ++ List.replicate 191 0) ∧
    rdataToStr ([0, 1, 0, 0, 5, 0, 191] ++ List.replicate 191 0) 198 64 1 = ok (ascii "1 . ech=" ++ List.replicate 255 65 ++ [61]) ∧
    strToRdata (ascii "1 . ech=" ++ List.replicate 255 65 ++ [61]) 64 1 = err .parseError ∧
    strToRdata (ascii "128 ::") 38 1 = ok [128] ∧ rdataToStr [128] 1 38 1 = ok (ascii "128") ∧
    strToRdata (ascii "128") 38 1 = err .parseError := by
  decide +kernel

end Wdns
