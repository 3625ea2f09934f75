import Verif.Lemmas.RoundTripConv
import Verif.Props.TextStable

/-!
# C44, exactly: which accepted rdata come back from their text
-/

namespace Wdns
open Outcome Spec

/-- `w` comes back: it has a text, and reading that text gives `w`. -/
def ComesBack (ty cls : Nat) (r : CRdata) : Prop :=
  ∃ text, rdataToStr r.data r.len ty cls = ok text ∧ strToRdata text ty cls = ok r.data

/-- Rdata `w` of type `ty` and class `cls` can be expressed in text.  No condition for types without a known layout; only the empty
rdata for types of class IN in other classes and for OPT; the conditions of `Exact` (`Spec/RdataScan.lean`) for all others. -/
def Spec.Expressible (ty cls : Nat) (w : List UInt8) : Prop :=
  ∀ d, recordDescr ty = some d → if d.applies cls = false ∨ ty = 41 then w = [] else Exact d.types w

theorem spaced_mem {toks : List (List UInt8)} {t : List UInt8} {b : UInt8} (ht : t ∈ toks) (hb : b ∈ t) : b ∈ spaced toks := by
  have key : ∀ toks : List (List UInt8), t ∈ toks → b ∈ tails toks := by
    intro toks
    induction toks with
    | nil => intro h; simp at h
    | cons a ts ih =>
      intro h
      have e : tails (a :: ts) = 32 :: (a ++ tails ts) := rfl
      rw [e]
      rcases List.mem_cons.mp h with rfl | h
      · simp [hb]
      · simp [ih h]
  cases toks with
  | nil => simp at ht
  | cons a ts =>
    rw [spaced_tails]
    rcases List.mem_cons.mp ht with rfl | h
    · simp [hb]
    · simp [key ts h]

theorem cstrOf_zero (u : List UInt8) : 0 ∉ cstrOf u := by
  unfold cstrOf
  induction u with
  | nil => simp
  | cons c u ih =>
    rw [List.takeWhile_cons]
    split
    · rename_i h
      simp only [List.mem_cons, not_or]
      refine ⟨?_, ih⟩
      rintro rfl
      simp at h
    · simp

/-- **C44, exactly.** An accepted rdata is written as text and read back unchanged if and only if it can be expressed in text.
Restrictions as in `C42_known_partial`: no SvcParam of 65532 or more octets, and fewer than 65536 octets stored. -/
theorem C44_round_trip_iff_partial (mem : List UInt8) (p eop o rdlen ty cls : Nat) (r : CRdata)
    (hm : eop ≤ mem.length) (h64 : eop < 2 ^ 64) (hp : p ≤ o) (hfit : o + rdlen ≤ eop) (hl : rdlen < 65536)
    (hsvc : ty = 64 ∨ ty = 65 → cls = 1 → ¬ LongSvc (mem.take eop) o rdlen)
    (h : parseRdata mem p eop o rdlen ty cls = ok r) (hlt : r.data.length < 65536) :
    ComesBack ty cls r ↔ Expressible ty cls r.data := by
  unfold ComesBack Expressible
  cases hd : recordDescr ty with
  | none =>
    refine ⟨fun _ d h => by simp at h, fun _ => C44_round_trip_unknown mem p eop o rdlen ty cls r hd hm h64 hp hfit hl h⟩
  | some d =>
    simp only [Option.some.injEq, forall_eq']
    cases ha : d.applies cls with
    | false =>
      simp only [true_or, if_true]
      constructor
      · rintro ⟨text, -, h2⟩
        rw [C73_other_class text ty cls d hd ha, ok.injEq] at h2
        exact h2.symm
      · intro h0
        exact ⟨_, C42_other_class r.data r.len ty cls d hd ha, by rw [h0]; exact C73_other_class _ ty cls d hd ha⟩
    | true =>
      by_cases hopt : ty = 41
      · rw [if_pos (Or.inr hopt)]
        subst hopt
        obtain rfl : d = ⟨0, [.ednsOptRdata]⟩ := by
          have : recordDescr 41 = some ⟨0, [.ednsOptRdata]⟩ := rfl
          rw [this] at hd; exact (Option.some.inj hd).symm
        constructor
        · rintro ⟨text, h1, h2⟩
          have h0 : 0 ∉ text := by
            unfold rdataToStr at h1
            obtain ⟨u, -, e⟩ := bind_eq_ok.mp h1
            cases e
            exact cstrOf_zero u
          exact scanned_opt ((C73_rdata_exact text r.data 41 cls _ hd ha h0).mp h2)
        · intro h0
          have hlen := (C39_length_iff mem p eop o rdlen 41 cls r h).2.mpr hlt
          rw [h0] at hlen ⊢
          rw [hlen]
          exact ⟨[], rfl, (C73_rdata_exact [] [] 41 cls _ hd ha (by simp)).mpr (.stop (by simp))⟩
      · rw [if_neg (by simp [hopt])]
        constructor
        · rintro ⟨text, h1, h2⟩
          obtain ⟨toks, e1, e2, e3, -⟩ := C42_known_partial mem p eop o rdlen ty cls d r hd ha hopt hm h64 hp hfit hl hsvc h hlt
          rw [h1, ok.injEq] at e2
          subst e2
          have h0 : 0 ∉ spaced toks := fun h => by have := (e3 0 h).1; simp at this
          have hsc := (C73_rdata_exact (spaced toks) r.data ty cls d hd ha h0).mp h2
          obtain ⟨q, hq⟩ := (sFields_iff d.types (spaced toks) [] r.data (some (spaced toks)) h0 (Or.inl rfl)).mpr ⟨r.data, hsc, rfl⟩
          exact fields_conv e1 hlt (fun t ht h => h0 (spaced_mem ht h)) (descr_good hd) _ _ [] At.some (Or.inr rfl) q
            (by rw [List.nil_append]; exact hq)
        · intro hx
          exact C44_round_trip_partial mem p eop o rdlen ty cls d r hd ha hopt hm h64 hp hfit hl hsvc h hlt hx

/-- An RRSIG rdata that is accepted, and can be expressed; and one that covers type 0, which is accepted and cannot. -/
example :
    parseRdata [0, 1, 8, 2, 0, 0, 0, 1, 0, 0, 0, 2, 0, 0, 0, 3, 0, 7, 0, 1] 0 20 0 20 46 1 =
      ok ⟨20, [0, 1, 8, 2, 0, 0, 0, 1, 0, 0, 0, 2, 0, 0, 0, 3, 0, 7, 0, 1]⟩ ∧
    ComesBack 46 1 ⟨20, [0, 1, 8, 2, 0, 0, 0, 1, 0, 0, 0, 2, 0, 0, 0, 3, 0, 7, 0, 1]⟩ ∧
    parseRdata [0, 0, 8, 2, 0, 0, 0, 1, 0, 0, 0, 2, 0, 0, 0, 3, 0, 7, 0, 1] 0 20 0 20 46 1 =
      ok ⟨20, [0, 0, 8, 2, 0, 0, 0, 1, 0, 0, 0, 2, 0, 0, 0, 3, 0, 7, 0, 1]⟩ ∧
    ¬ Expressible 46 1 [0, 0, 8, 2, 0, 0, 0, 1, 0, 0, 0, 2, 0, 0, 0, 3, 0, 7, 0, 1] := by
  refine ⟨by decide +kernel, ⟨ascii "A 8 2 1 2 3 7 . AQ==", by decide +kernel, by decide +kernel⟩, by decide +kernel, ?_⟩
  intro hx
  have := (C44_round_trip_iff_partial [0, 0, 8, 2, 0, 0, 0, 1, 0, 0, 0, 2, 0, 0, 0, 3, 0, 7, 0, 1] 0 20 0 20 46 1
    ⟨20, [0, 0, 8, 2, 0, 0, 0, 1, 0, 0, 0, 2, 0, 0, 0, 3, 0, 7, 0, 1]⟩ (by decide) (by decide) (by decide) (by decide) (by decide)
    (by simp) (by decide +kernel) (by decide)).mpr hx
  obtain ⟨text, h1, h2⟩ := this
  obtain ⟨-, e1, e2⟩ := C44_violations.1
  have e1' : rdataToStr [0, 0, 8, 2, 0, 0, 0, 1, 0, 0, 0, 2, 0, 0, 0, 3, 0, 7, 0, 1] 20 46 1 = ok (ascii "TYPE0 8 2 1 2 3 7 . AQ==") := e1
  rw [e1'] at h1
  cases h1
  rw [e2] at h2
  cases h2

/-- What `C77_text_usable_partial` proves of the rdata an accepted text gives, from the octets alone. -/
theorem usable_of_exact {ty cls : Nat} {d : Descr} {r : List UInt8} (hd : recordDescr ty = some d) (ha : d.applies cls = true) (hopt : ty ≠ 41)
    (he : Exact d.types r) (hl : r.length < 65536) : Usable ty cls r := by
  have hc := conforms_of_exact he
  refine ⟨fun mem p eop o h1 h2 h3 h4 h5 => C38_uncompressed_verbatim mem p eop o ty cls d r hd ha hc h1 h2 h3 h4 h5 hl, ?_⟩
  obtain ⟨toks, text, h1, h2, h3, h4⟩ :=
    rdataToUbuf_render (u := []) (mem := r) (cls := cls) hd ha hopt hc ⟨by simp, by simp⟩ hl Clean.nil
  have hst := textOf_strip (u := []) h3 (Or.inl (by simp))
  have hpr := printable_spaced h2
  obtain ⟨p', h5⟩ := fields_scan h1 he (descr_good hd) (some (spaced toks)) _ [] At.some (Or.inr rfl)
  refine ⟨spaced toks, ?_, strToRdata_fields hd ha (by rw [h5, List.nil_append])⟩
  unfold rdataToStr
  rw [h4, ok_bind, hst, List.nil_append, cstrOf_of hpr.ne_zero]

/-- **C77, exactly.** Octets are rdata that every function of the library handles (the parser stores them unchanged from any place in any message,
they have a text, and the text reads back) if and only if they can be expressed in text (`Spec.Expressible`); this holds for the octets any text gives.
For SVCB and HTTPS, octets with a SvcParam whose length field is 65532 or more are excluded. -/
theorem C77_usable_exactly_partial (ty cls : Nat) (r : List UInt8) (hl : r.length < 65536)
    (hsvc : ty = 64 ∨ ty = 65 → cls = 1 → ¬ LongSvc r 0 r.length) : Usable ty cls r ↔ Expressible ty cls r := by
  have ht : r.take r.length = r := List.take_length
  constructor
  · rintro ⟨h1, h2⟩
    have h3 := h1 r 0 r.length 0 (Nat.le_refl _) (by omega) (Nat.le_refl _) (by omega) (by simp)
    exact (C44_round_trip_iff_partial r 0 r.length 0 r.length ty cls ⟨r.length, r⟩ (Nat.le_refl _) (by omega) (Nat.le_refl _) (by omega) hl
      (by rw [ht]; exact hsvc) h3 hl).1 h2
  · intro hx
    cases hd : recordDescr ty with
    | none =>
      have ho : Opaque ty cls := fun d h => by rw [hd] at h; cases h
      refine ⟨fun mem p eop o h1 h2 h3 h4 h5 => ?_, C46_generic_round_trip r ty cls hd hl⟩
      exact parseRdata_opaque ho (Win.of_take ⟨by simp; omega, h5⟩) hl
    | some d =>
      have hx := hx d hd
      cases ha : d.applies cls with
      | false =>
        rw [if_pos (.inl ha)] at hx
        subst hx
        exact C77_other_class [] [] ty cls d hd ha (C73_other_class [] ty cls d hd ha)
      | true =>
        by_cases hopt : ty = 41
        · rw [if_pos (.inr hopt)] at hx
          subst hx hopt
          obtain rfl : d = ⟨0, [.ednsOptRdata]⟩ := by
            have : recordDescr 41 = some ⟨0, [.ednsOptRdata]⟩ := rfl
            rw [this] at hd; exact (Option.some.inj hd).symm
          exact C77_nameless [] [] 41 cls _ hd (by simp [IsName]) (by simp) ((C73_rdata_exact [] [] 41 cls _ hd ha (by simp)).mpr (.stop (by simp))) (by simp)
        · rw [if_neg (by simp [ha, hopt])] at hx
          exact usable_of_exact hd ha hopt hx hl

/-- Cases of `C77_usable_exactly_partial`: an address is usable; the name with a label of 64 octets and the A6 prefix without a name, which
texts give, are not. -/
example : Usable 1 1 [192, 0, 2, 1] ∧ ¬ Usable 2 1 (64 :: List.replicate 64 97 ++ [0]) ∧ ¬ Usable 38 1 [128] := by
  refine ⟨C77_nameless (ascii "192.0.2.1") _ 1 1 _ rfl (by simp [IsName]) (by decide) (by decide +kernel) (by simp), fun h => ?_, fun h => ?_⟩
  · have := h.1 (64 :: List.replicate 64 97 ++ [0]) 0 66 0 (by simp) (by omega) (by simp) (by simp) (by simp)
    rw [show (64 :: List.replicate 64 97 ++ [0] : List UInt8).length = 66 by simp, C77_violations.2.1] at this
    cases this
  · obtain ⟨t, h1, h2⟩ := h.2
    obtain ⟨-, -, -, -, -, -, -, -, -, -, -, h3, h4⟩ := C77_violations
    rw [show ([128] : List UInt8).length = 1 from rfl, h3, ok.injEq] at h1
    rw [← h1, h4] at h2
    cases h2

end Wdns
