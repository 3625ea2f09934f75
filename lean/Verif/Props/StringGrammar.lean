import Verif.Lemmas.StringGrammar
import Verif.Lemmas.ScanBad

/-!
# C71: which texts are TXT rdata
-/

namespace Wdns
open Outcome Spec

theorem txtReads_blanks {s : List UInt8} {ws : List (List UInt8)} : TxtReads s ws ↔ TxtReads (s.dropWhile isSpace) ws := by
  induction s generalizing ws with
  | nil => simp
  | cons c s ih =>
    rw [List.dropWhile_cons]
    by_cases hc : isSpace c = true
    · rw [if_pos hc, ← ih]
      constructor
      · intro h
        cases h with
        | blank _ h => exact h
        | cons hb _ _ _ => exact absurd ((isSpace_iff c).mp hc) (hb c rfl)
      · exact .blank ((isSpace_iff c).mp hc)
    · rw [if_neg hc]

/-- Reading rdata of a known type is running the fields. -/
theorem strToRdata_iff {t c : Nat} {d : Descr} (hd : recordDescr t = some d) (ha : d.applies c = true) (s r : List UInt8) :
    strToRdata s t c = ok r ↔ ∃ s', sFields d.types (some s) [] = ok (.go s' r) := by
  have hn := sFields_noBad d.types (some s) []
  unfold strToRdata strToRdataUbuf
  simp only [hd, ha, if_true]
  cases h : sFields d.types (some s) [] with
  | ok x =>
    cases x with
    | go s' u => simp
    | bad e u =>
      simp only [ok_bind]
      have he : e ≠ .success := fun he => hn u (by rw [h, he])
      simp [he]
  | err e => simp [Bind.bind, Outcome.bind]
  | ub => simp [Bind.bind, Outcome.bind]
  | hang => simp [Bind.bind, Outcome.bind]
  | abort => simp [Bind.bind, Outcome.bind]

/-- **C71.** `wdns_str_to_rdata` for the type TXT accepts exactly the texts that list character strings of at most 255 octets, quoted
or not, and gives exactly the strings listed, each after its length octet. -/
theorem C71_txt_exact (s r : List UInt8) (c : Nat) :
    strToRdata s 16 c = ok r ↔ ∃ ws, TxtReads s ws ∧ r = ws.flatMap encString := by
  rw [strToRdata_iff (d := ⟨0, [.repstring]⟩) rfl rfl]
  simp only [sFields]
  by_cases hs : s.dropWhile isSpace = []
  · simp only [if_pos hs]
    constructor
    · rintro ⟨s', h⟩
      simp only [ok.injEq, FRes.go.injEq] at h
      refine ⟨[], ?_, by simp [← h.2]⟩
      rw [txtReads_blanks, hs]; exact .nil
    · rintro ⟨ws, h1, rfl⟩
      rw [txtReads_blanks, hs] at h1
      have := sRepstring_complete h1 1 [] (by simp)
      simp only [sRepstring, ok.injEq, FRes.go.injEq] at this
      exact ⟨some [], by rw [this.2]; rfl⟩
  · simp only [if_neg hs]
    have hf : sField .repstring (s.dropWhile isSpace) [] = sRepstring ((s.dropWhile isSpace).length + 1) (s.dropWhile isSpace) [] := rfl
    rw [hf]
    constructor
    · rintro ⟨s', h⟩
      cases hr : sRepstring ((s.dropWhile isSpace).length + 1) (s.dropWhile isSpace) [] with
      | ok x =>
        rw [hr] at h
        cases x with
        | go s'' u =>
          simp only [ok_bind, ok.injEq, FRes.go.injEq] at h
          obtain ⟨ws, e1, e2, -⟩ := sRepstring_sound _ _ _ _ _ hr
          exact ⟨ws, txtReads_blanks.mpr e1, by rw [← h.2, e2]; rfl⟩
        | bad e u => simp at h
      | err e => rw [hr] at h; simp [Bind.bind, Outcome.bind] at h
      | ub => rw [hr] at h; simp [Bind.bind, Outcome.bind] at h
      | hang => rw [hr] at h; simp [Bind.bind, Outcome.bind] at h
      | abort => rw [hr] at h; simp [Bind.bind, Outcome.bind] at h
    · rintro ⟨ws, h1, rfl⟩
      rw [txtReads_blanks] at h1
      rw [sRepstring_complete h1 _ [] (by simp)]
      exact ⟨some [], rfl⟩

/-- A text has at most one reading as a list of strings. -/
theorem C71_txt_unique (s : List UInt8) (a b : List (List UInt8)) (ha : TxtReads s a) (hb : TxtReads s b) : a = b := by
  induction ha generalizing b with
  | nil =>
    cases hb with
    | nil => rfl
    | cons _ h _ _ =>
      obtain ⟨k, h0, -, -, h3⟩ := fromStr_complete h []
      simp at h3; exact absurd h3 h0
  | blank hc _ ih =>
    cases hb with
    | blank _ h => exact ih b h
    | cons hn _ _ _ => exact absurd hc (hn _ rfl)
  | cons hn h1 _ _ ih =>
    cases hb with
    | nil =>
      obtain ⟨k, h0, -, -, h3⟩ := fromStr_complete h1 []
      simp at h3; exact absurd h3 h0
    | blank hc _ => exact absurd hc (hn _ rfl)
    | cons _ h2 _ h4 =>
      obtain ⟨rfl, rfl⟩ := stringReads_det h1 h2
      rw [ih _ h4]

/-- `foo "b\"r" \065` lists the strings `foo`, `b"r` and `A`; an open quote, an escape of 256 and a string of 256 octets are refused. -/
example : strToRdata (ascii "foo \"b\\\"r\" \\065") 16 1 = ok (encString (ascii "foo") ++ encString (ascii "b\"r") ++ encString (ascii "A")) ∧
    strToRdata (ascii "\"foo") 16 1 = err .parseError ∧ strToRdata (ascii "\\256") 16 1 = err .parseError ∧
    strToRdata (List.replicate 256 97) 16 1 = err .parseError ∧ strToRdata (ascii "\"\"") 16 1 = ok [0] := by
  decide +kernel

end Wdns
