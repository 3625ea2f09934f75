import Verif.Lemmas.NameGrammar
import Verif.Props.NameText

/-!
# Which texts are names, and which names they are (C70)
-/

namespace Wdns
open Outcome Spec

theorem strToNameGen_exact (s : List UInt8) (dc : Bool) (h0 : 0 ∉ s) (r : CName) :
    strToNameGen s dc = ok r ↔ ∃ n, NameReads (caseOf dc) s n ∧ (wire n).length ≤ 255 ∧ r = ⟨(wire n).length, wire n⟩ := by
  have hroot : (s.length = 0 ∨ (s.length = 1 ∧ s.head? = some 46)) ↔ (s = [] ∨ s = [46]) := by
    match s with
    | [] => simp
    | [c] => simp
    | _ :: _ :: _ => simp
  unfold strToNameGen
  by_cases h : s = [] ∨ s = [46]
  · rw [if_pos (hroot.mpr h)]
    constructor
    · intro hr
      cases hr
      exact ⟨[], Or.inl ⟨h, rfl⟩, by simp [wire], by simp [wire]⟩
    · rintro ⟨n, hn, -, rfl⟩
      rcases hn with ⟨-, rfl⟩ | hl
      · simp [wire]
      · exfalso
        cases labels_iff_rest.mp hl with
        | done h' => exact h' rfl
        | doneDot h' => exact h' rfl
        | dot h' => exact h' rfl
        | @item _ t b s' _ hi hr =>
          rcases h with h | h
          · have := (List.append_eq_nil_iff.mp h).1
            subst this
            cases hi
          · cases hi with
            | plain h1 _ =>
              simp only [List.cons_append, List.nil_append, List.cons.injEq] at h
              exact h1 h.1
            | esc _ => simp at h
            | ddd _ _ _ _ => simp at h
  · rw [if_neg (fun hh => h (hroot.mp hh))]
    rw [not_or] at h
    constructor
    · intro hr
      obtain ⟨n, h1, h2, h3⟩ := stnLoop_exact h0 (s.length + 2) 0 [] [] r (by omega) (by omega)
        (by intro hh; exact absurd (List.length_eq_zero_iff.mp hh.symm) h.1) (by simpa [labs, maxlenName] using hr)
      simp only [List.drop_zero, List.nil_append] at h1 h2 h3
      exact ⟨n, Or.inr (labels_iff_rest.mpr h1), h2, h3⟩
    · rintro ⟨n, hn, hlen, rfl⟩
      rcases hn with ⟨hh, -⟩ | hl
      · exact absurd hh (by rw [not_or]; exact h)
      · have := stnLoop_complete (dc := dc) h0 (labels_iff_rest.mp hl) (s.length + 2) 0 [] (by simp) (by omega) (by omega) (by simpa using hlen)
        simpa [labs, maxlenName] using this

/-- **C70** (letter case kept): `wdns_str_to_name_case` accepts exactly the texts of the grammar of `Spec/NameGrammar.lean` whose
name has at most 255 octets in wire form, and the result is the wire form of that name. -/
theorem C70_name_case_exact (s : List UInt8) (h0 : 0 ∉ s) (r : CName) :
    strToNameCase s = ok r ↔ ∃ n, NameReads id s n ∧ (wire n).length ≤ 255 ∧ r = ⟨(wire n).length, wire n⟩ := by
  have : (caseOf false) = id := by funext c; simp [caseOf]
  rw [← this]
  exact strToNameGen_exact s false h0 r

/-- A case of `C70_name_case_exact`: what the grammar gives for an escaped dot and an escaped octet. -/
example : ∃ n, NameReads id (ascii "Ab\\.\\068.c") n ∧ wire n = wire [ascii "Ab.D", ascii "c"] := by
  obtain ⟨n, h, -, e⟩ := (C70_name_case_exact (ascii "Ab\\.\\068.c") (by decide) ⟨8, wire [ascii "Ab.D", ascii "c"]⟩).1 (by decide)
  exact ⟨n, h, (CName.mk.inj e).2.symm⟩

/-- **C70** (lower case): `wdns_str_to_name` accepts exactly the same texts; unescaped letters are lower-cased. -/
theorem C70_name_exact (s : List UInt8) (h0 : 0 ∉ s) (r : CName) :
    strToName s = ok r ↔ ∃ n, NameReads lower s n ∧ (wire n).length ≤ 255 ∧ r = ⟨(wire n).length, wire n⟩ := by
  have : (caseOf true) = lower := by funext c; simp [caseOf]
  rw [← this]
  exact strToNameGen_exact s true h0 r

/-- A text has at most one reading (up to the root): the result is determined by the grammar. -/
theorem C70_name_unique (s : List UInt8) (h0 : 0 ∉ s) (n m : Name) (hn : NameReads id s n) (hm : NameReads id s m)
    (ln : (wire n).length ≤ 255) (lm : (wire m).length ≤ 255) : wire n = wire m := by
  have h1 := (C70_name_case_exact s h0 _).mpr ⟨n, hn, ln, rfl⟩
  have h2 := (C70_name_case_exact s h0 _).mpr ⟨m, hm, lm, rfl⟩
  rw [h1, ok.injEq, CName.mk.injEq] at h2
  exact h2.2

/-- `Ab\.\068.c` is the name with the labels `Ab.D` and `c`, with and without the final dot; `a..b`, `\300` and a leading dot
are not names. -/
example : strToNameCase (ascii "Ab\\.\\068.c") = ok ⟨8, wire [ascii "Ab.D", ascii "c"]⟩ ∧
    strToName (ascii "Ab\\.\\068.c.") = ok ⟨8, wire [ascii "ab.D", ascii "c"]⟩ ∧
    (∀ s ∈ [ascii "a..b", ascii "\\300", ascii ".a", ascii "a\\1", ascii "a\\12x"], strToName s = err .parseError) := by
  decide +kernel

end Wdns
