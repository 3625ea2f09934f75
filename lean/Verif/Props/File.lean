import Verif.Spec.File
import Verif.Props.NameText
import Verif.Lemmas.TextBase

/-!
# Loading names from a file (C63)
-/

namespace Wdns
open Outcome Spec

theorem fgetsGo_line (l rest : List UInt8) (h : ∀ c ∈ l, c ≠ 10) : ∀ n, l.length < n → fgetsGo n (l ++ 10 :: rest) = (l ++ [10], rest) := by
  induction l with
  | nil =>
    intro n hn
    obtain ⟨k, rfl⟩ : ∃ k, n = k + 1 := ⟨n - 1, by omega⟩
    simp [fgetsGo]
  | cons c l ih =>
    intro n hn
    obtain ⟨k, rfl⟩ : ∃ k, n = k + 1 := ⟨n - 1, by omega⟩
    simp only [List.length_cons] at hn
    rw [List.cons_append, fgetsGo, if_neg (h c (by simp)), ih (fun c hc => h c (by simp [hc])) k (by omega)]
    rfl

theorem fgetsGo_last (l : List UInt8) (h : ∀ c ∈ l, c ≠ 10) : ∀ n, l.length ≤ n → fgetsGo n l = (l, []) := by
  induction l with
  | nil => intro n _; cases n <;> rfl
  | cons c l ih =>
    intro n hn
    obtain ⟨k, rfl⟩ : ∃ k, n = k + 1 := ⟨n - 1, by simp at hn; omega⟩
    simp only [List.length_cons] at hn
    rw [fgetsGo, if_neg (h c (by simp)), ih (fun c hc => h c (by simp [hc])) k (by omega)]

/-- Lines the loader handles: no newline and no NUL in it, short enough for the buffer, and not ending in an unpaired
backslash. -/
def LineOK (l : List UInt8) : Prop := (∀ c ∈ l, c ≠ 10 ∧ c ≠ 0) ∧ l.length ≤ 1278 ∧ trailingBackslashes l % 2 = 0

theorem cstrOf_of' {u : List UInt8} (h : ∀ b ∈ u, b ≠ 0) : cstrOf u = u := by
  unfold cstrOf
  induction u with
  | nil => rfl
  | cons c u ih =>
    rw [List.takeWhile_cons, if_pos (by simpa using h c (by simp)), ih fun b hb => h b (by simp [hb])]

theorem loadLine_eq {l : List UInt8} (h : ∀ c ∈ l, c ≠ 10 ∧ c ≠ 0) (nl : List UInt8) (hnl : nl = [10] ∨ (nl = [] ∧ l ≠ [])) :
    loadLine (l ++ nl) = if Skipped l then ok none else (strToName l >>= fun n => ok (some n)) := by
  unfold loadLine
  cases l with
  | nil =>
    rcases hnl with rfl | ⟨_, h⟩
    · simp [Skipped]
    · exact absurd rfl h
  | cons c l =>
    obtain ⟨h1, h2⟩ := h c (by simp)
    by_cases hs : Skipped (c :: l)
    · have : c = 32 ∨ c = 35 := by simpa [Skipped] using hs
      rw [if_pos hs]
      simp only [List.cons_append, List.getD_cons_zero]
      rw [if_pos (Or.inr this)]
    · have : ¬ (c = 32 ∨ c = 35) := by simpa [Skipped] using hs
      rw [if_neg hs]
      simp only [List.cons_append, List.getD_cons_zero]
      have hc : cstrOf (c :: (l ++ nl)) = c :: (l ++ nl) := cstrOf_of' (by
        intro b hb
        rcases hnl with rfl | ⟨rfl, _⟩
        · rcases List.mem_cons.mp hb with rfl | hb
          · exact h2
          · rcases List.mem_append.mp hb with hb | hb
            · exact (h b (by simp [hb])).2
            · simp at hb; subst hb; decide
        · rw [List.append_nil] at hb
          exact (h b hb).2)
      rw [if_neg (by rintro (e | e); exact h1 e; exact this e), hc, if_neg (by simp)]
      rcases hnl with rfl | ⟨rfl, _⟩
      · have e1 : (c :: (l ++ [10])).getLast? = some 10 := by rw [← List.cons_append, List.getLast?_append]; rfl
        have e2 : (c :: (l ++ [10])).dropLast = c :: l := by rw [← List.cons_append, List.dropLast_concat]
        rw [if_pos e1, e2]
      · rw [List.append_nil, if_neg]
        intro e
        exact (h 10 (List.mem_of_getLast? e)).1 rfl

theorem loadLoop_step (fuel : Nat) {f line rest l : List UInt8} (hf : fgets 1280 f = some (line, rest))
    (hl : loadLine line = if Skipped l then ok none else (strToName l >>= fun n => ok (some n))) {ls : List (List UInt8)}
    (hret : Skipped l ∨ (strToName l).Returns)
    (ih : ∃ ns r, loadLoop fuel rest = ok (ns, r) ∧ Loads ls ns r) :
    ∃ ns r, loadLoop (fuel + 1) f = ok (ns, r) ∧ Loads (l :: ls) ns r := by
  obtain ⟨ns, r, h1, h2⟩ := ih
  rw [loadLoop, hf]
  simp only
  rw [hl]
  by_cases hs : Skipped l
  · rw [if_pos hs]
    exact ⟨ns, r, h1, .skip hs h2⟩
  · rw [if_neg hs]
    have := hret.resolve_left hs
    cases hn : strToName l with
    | ok n => exact ⟨n :: ns, r, by simp [h1], .name hs hn h2⟩
    | err e => exact ⟨[], e, by simp, .bad hs hn⟩
    | ub => rw [hn] at this; exact absurd this (by simp)
    | hang => rw [hn] at this; exact absurd this (by simp)
    | abort => rw [hn] at this; exact absurd this (by simp)

theorem loadLoop_spec (ls : List (List UInt8)) (last : List UInt8) (h : ∀ l ∈ ls, LineOK l) (hlast : LineOK last) : ∀ fuel,
    (ls.flatMap (· ++ [10]) ++ last).length + 1 ≤ fuel →
    ∃ ns r, loadLoop fuel (ls.flatMap (· ++ [10]) ++ last) = ok (ns, r) ∧ Loads (ls ++ if last = [] then [] else [last]) ns r := by
  have ret : ∀ l, LineOK l → (strToName l).Returns := fun l hl =>
    (C18_scan_safe_partial l (fun c hc => (hl.1 c hc).2) hl.2.2).1
  induction ls with
  | nil =>
    intro fuel hf
    obtain ⟨k, rfl⟩ : ∃ k, fuel = k + 1 := ⟨fuel - 1, by omega⟩
    simp only [List.flatMap_nil, List.nil_append] at hf ⊢
    by_cases h0 : last = []
    · subst h0
      exact ⟨[], .success, by simp [loadLoop, fgets], .done⟩
    · have hg : fgets 1280 last = some (last, []) := by
        unfold fgets
        rw [if_neg h0, fgetsGo_last last (fun c hc => (hlast.1 c hc).1) _ (by have := hlast.2.1; omega)]
      have hpos := List.length_pos_iff.mpr h0
      obtain ⟨j, rfl⟩ : ∃ j, k = j + 1 := ⟨k - 1, by omega⟩
      rw [if_neg h0]
      refine loadLoop_step _ hg (l := last) ?_ (Or.inr (ret last hlast)) ⟨[], .success, by simp [loadLoop, fgets], .done⟩
      have := loadLine_eq hlast.1 [] (Or.inr ⟨rfl, h0⟩)
      rwa [List.append_nil] at this
  | cons l ls ih =>
    intro fuel hf
    obtain ⟨k, rfl⟩ : ∃ k, fuel = k + 1 := ⟨fuel - 1, by omega⟩
    have hl := h l (by simp)
    have e : (l :: ls).flatMap (· ++ [10]) ++ last = l ++ 10 :: (ls.flatMap (· ++ [10]) ++ last) := by simp
    rw [e] at hf ⊢
    have hg : fgets 1280 (l ++ 10 :: (ls.flatMap (· ++ [10]) ++ last)) = some (l ++ [10], ls.flatMap (· ++ [10]) ++ last) := by
      unfold fgets
      rw [if_neg (by simp), fgetsGo_line l _ (fun c hc => (hl.1 c hc).1) _ (by have := hl.2.1; omega)]
    refine loadLoop_step _ hg (loadLine_eq hl.1 [10] (Or.inl rfl)) (Or.inr (ret l hl)) (ih (fun l hl => h l (by simp [hl])) k ?_)
    simp only [List.length_append, List.length_cons] at hf ⊢
    omega

/-- **C63, partial.**  A file with the lines `ls` (terminated) and `last` (not terminated; empty if there is none) is loaded
line by line: the callback gets the parsed, lower-cased name of each line that is not skipped, in order, up to the first line
that is not a name; the result is success or the error of that line; no memory outside the line buffer is accessed.

Missing: lines of more than 1278 characters, NUL characters, a line ending in an unpaired backslash (`C63_violations`). -/
theorem C63_load_partial (ls : List (List UInt8)) (last : List UInt8) (h : ∀ l ∈ ls, LineOK l) (hlast : LineOK last) :
    ∃ ns r, fileLoadNames (some (ls.flatMap (· ++ [10]) ++ last)) = ok (ns, r) ∧
      Loads (ls ++ if last = [] then [] else [last]) ns r :=
  loadLoop_spec ls last h hlast _ (Nat.le_refl _)

/-- A case of `C63_load_partial`: a comment, a name and an unfinished last line. -/
example : ∃ ns r, fileLoadNames (some (([ascii "# x", ascii "Www.a"].flatMap (· ++ [10])) ++ ascii "b")) = ok (ns, r) ∧
    Loads [ascii "# x", ascii "Www.a", ascii "b"] ns r :=
  C63_load_partial [ascii "# x", ascii "Www.a"] (ascii "b")
    (by intro l hl; simp only [List.mem_cons, List.not_mem_nil, or_false] at hl; rcases hl with rfl | rfl <;> unfold LineOK <;> decide) (by unfold LineOK; decide)

/-- Every file has such lines. -/
theorem C63_lines (f : List UInt8) : ∃ (ls : List (List UInt8)) (last : List UInt8), f = ls.flatMap (· ++ [10]) ++ last ∧ (∀ l ∈ ls, 10 ∉ l) ∧ 10 ∉ last := by
  induction f with
  | nil => exact ⟨[], [], rfl, by simp, by simp⟩
  | cons c f ih =>
    obtain ⟨ls, last, rfl, h1, h2⟩ := ih
    by_cases hc : c = 10
    · subst hc
      exact ⟨[] :: ls, last, by simp, by simpa using h1, h2⟩
    · cases ls with
      | nil => exact ⟨[], c :: last, by simp, by simp, by simp [h2]; exact fun e => hc e.symm⟩
      | cons l ls =>
        refine ⟨(c :: l) :: ls, last, by simp, ?_, h2⟩
        intro x hx
        rcases List.mem_cons.mp hx with rfl | hx
        · have := h1 l (by simp)
          simp [this]
          exact fun e => hc e.symm
        · exact h1 x (by simp [hx])

theorem nameText_line {n : Name} (hn : WF n) : LineOK (nameText n) := by
  obtain ⟨-, h1, h2⟩ := C16_name_text n [] hn
  refine ⟨fun c hc => ?_, by omega, ?_⟩
  · have := h2 c hc
    constructor <;> rintro rfl <;> simp at this
  · have hl : (nameText n).getLast? = some 46 := by
      cases n with
      | nil => decide
      | cons l n =>
        unfold nameText
        rw [if_neg (by simp)]
        generalize hs : (l :: n) = m
        have hm : m ≠ [] := by rw [← hs]; simp
        rw [← List.dropLast_concat_getLast hm, List.flatMap_append]
        simp
    obtain ⟨t, ht⟩ := List.getLast?_eq_some_iff.mp hl
    unfold trailingBackslashes
    rw [ht, List.reverse_append]
    simp

/-- **C63**: writing names one per line, as `wdns_domain_to_str` gives them, and loading the file hands out exactly these
names in lower case, in order.  (Except for names whose first character is `#`: their lines are comments.) -/
theorem C63_load_names (ns : List Name) (h : ∀ n ∈ ns, WF n ∧ (nameText n).head? ≠ some 35) :
    fileLoadNames (some (ns.flatMap fun n => nameText n ++ [10])) =
      ok (ns.map fun n => ⟨(wire n).length, wire (lowerName n)⟩, .success) := by
  obtain ⟨cs, r, h1, h2⟩ := C63_load_partial (ns.map nameText) [] (by
    intro l hl
    obtain ⟨n, hn, rfl⟩ := List.mem_map.mp hl
    exact nameText_line (h n hn).1) ⟨by simp, by simp, by decide⟩
  rw [List.append_nil, List.flatMap_map] at h1
  rw [if_pos rfl, List.append_nil] at h2
  rw [h1]
  have key : ∀ (ns : List Name) cs r, (∀ n ∈ ns, WF n ∧ (nameText n).head? ≠ some 35) → Loads (ns.map nameText) cs r →
      cs = ns.map (fun n => (⟨(wire n).length, wire (lowerName n)⟩ : CName)) ∧ r = .success := by
    intro ns
    induction ns with
    | nil => intro cs r _ h; cases h; exact ⟨rfl, rfl⟩
    | cons n ns ih =>
      intro cs r h hl
      obtain ⟨hn, h35⟩ := h n (by simp)
      have hsk : ¬ Skipped (nameText n) := by
        have h3 := (C16_name_text n [] hn).2.2
        rintro (e | e | e)
        · have := (nameText_line hn)
          cases n with
          | nil => simp [nameText] at e
          | cons l n => simp [nameText] at e
        · have := h3 32 (List.mem_of_mem_head? e)
          simp at this
        · exact h35 e
      have hst : strToName (nameText n) = ok ⟨(wire n).length, wire (lowerName n)⟩ := by
        rw [strToName, strToNameGen_text true n hn, caseName_true]
      rw [List.map_cons] at hl
      cases hl with
      | skip hs _ => exact absurd hs hsk
      | name _ h1 h2 =>
        obtain ⟨rfl, rfl⟩ := ih _ _ (fun n hn => h n (by simp [hn])) h2
        rw [hst] at h1
        cases h1
        exact ⟨rfl, rfl⟩
      | bad _ h1 => rw [hst] at h1; cases h1
  obtain ⟨rfl, rfl⟩ := key ns cs r h h2
  rfl

/-- The hypotheses of `C63_load_names`. -/
example : ∀ n ∈ [[ascii "www", ascii "a b"], [ascii "X"]], WF n ∧ (nameText n).head? ≠ some 35 := by
  intro n hn
  simp only [List.mem_cons, List.not_mem_nil, or_false] at hn
  rcases hn with rfl | rfl
  · exact ⟨⟨by simp [LabelOK, ascii], by decide⟩, by decide +kernel⟩
  · exact ⟨⟨by simp [LabelOK, ascii], by decide⟩, by decide +kernel⟩

/-- A comment, an empty line and two names; then a line that is not a name, and a name that is not reached. -/
example : fileLoadNames (some (ascii "# x\n\nWww.a\nb.\n..\nc\n")) =
    ok ([⟨7, [3, 119, 119, 119, 1, 97, 0]⟩, ⟨3, [1, 98, 0]⟩], .parseError) := by decide +kernel

/-- **C63 is violated**: a file that begins with a NUL character makes the function read before its line buffer; a line ending
in a backslash makes `wdns_str_to_name` read beyond the end of the line; the end of a comment of more than 1279 characters is
taken for a name. -/
theorem C63_violations :
    fileLoadNames (some [0]) = ub ∧
    fileLoadNames (some (ascii "a\\\n")) = ub ∧
    fileLoadNames (some (35 :: List.replicate 1280 97 ++ [10])) = ok ([⟨4, [2, 97, 97, 0]⟩], .success) := by
  decide +kernel

/-- **C63, a file that cannot be opened**: failure, and the callback is not called. -/
theorem C63_unopened : fileLoadNames none = ok ([], .failure) := rfl

end Wdns
