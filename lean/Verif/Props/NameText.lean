import Verif.Lemmas.NameScan
import Verif.Props.NameOps

/-!
# Properties C15 - C20: names as text
-/

namespace Wdns
open Outcome Spec

/-! ## C15 -/

/-- **C15.** For every well-formed name: print it (`wdns_domain_to_str`), scan the text with
`wdns_str_to_name_case`: the identical wire name; with `wdns_str_to_name`: the lower-cased one. -/
theorem C15_name_text_round_trip (n : Name) (rest : List UInt8) (hn : WF n) :
    ∃ k t, domainToStr 1025 (wire n ++ rest) (wire n).length = ok (k, t) ∧
      strToNameCase t = ok ⟨(wire n).length, wire n⟩ ∧
      strToName t = ok ⟨(wire n).length, wire (lowerName n)⟩ := by
  refine ⟨_, _, domainToStr_spec hn (Nat.le_refl _), ?_, ?_⟩
  · rw [strToNameCase, strToNameGen_text false n hn, caseName_false]
  · rw [strToName, strToNameGen_text true n hn, caseName_true]

example : WF [[46, 92, 65], [0, 255, 32]] := by decide
example : domainToStr 1025 (wire [[46, 92, 65], [0, 255, 32]]) 9 =
    ok (9, ascii "\\.\\\\A.\\000\\255\\032.") := by decide +kernel

/-! ## C16 -/

/-- **C16.** For every well-formed name, `wdns_domain_to_str` with a buffer of 1025 bytes stays inside
its buffers (the name may be followed by any bytes, even none), returns the length of the name, writes
the presentation form, of at most 1013 characters plus NUL, all printable and non-space. -/
theorem C16_name_text (n : Name) (rest : List UInt8) (hn : WF n) :
    domainToStr 1025 (wire n ++ rest) (wire n).length = ok ((wire n).length, nameText n) ∧
    (nameText n).length + 1 ≤ 1014 ∧ (∀ c ∈ nameText n, 33 ≤ c.toNat ∧ c.toNat ≤ 126) := by
  refine ⟨domainToStr_spec hn (Nat.le_refl _), ?_, ?_⟩
  · have h1 := dotText_length_le n
    have h2 := wire_length_labs n
    have h3 := hn.2
    cases n with
    | nil => simp [nameText]
    | cons l n =>
      have : nameText (l :: n) = dotText (l :: n) := by simp [nameText, dotText]
      rw [this]; simp only [List.length_cons] at h1; omega
  · intro c hc
    have hesc : ∀ b c : UInt8, c ∈ escByte b → 33 ≤ c.toNat ∧ c.toNat ≤ 126 := by
      intro b c hc
      have hb := u8_lt b
      unfold escByte at hc
      split_ifs at hc with h1 h2
      · simp only [List.mem_cons, List.not_mem_nil, or_false] at hc
        rcases hc with rfl | rfl
        · decide
        · omega
      · simp only [List.mem_cons, List.not_mem_nil, or_false] at hc
        subst hc; exact h2
      · simp only [List.mem_cons, List.not_mem_nil, or_false] at hc
        rcases hc with rfl | rfl | rfl | rfl
        · decide
        all_goals simp; omega
    unfold nameText at hc
    split at hc
    · simp only [List.mem_singleton] at hc; subst hc; decide
    · simp only [List.mem_flatMap, List.mem_append, List.mem_singleton, labelText] at hc
      obtain ⟨l, _, hc⟩ := hc
      rcases hc with ⟨b, _, hc⟩ | rfl
      · exact hesc b c hc
      · decide

/-- **C16 (injectivity).** Different names have different texts. -/
theorem C16_name_text_injective (m n : Name) (hm : WF m) (hn : WF n)
    (h : domainToStr 1025 (wire m) (wire m).length = domainToStr 1025 (wire n) (wire n).length) :
    m = n := by
  have h1 := (C16_name_text m [] hm).1
  have h2 := (C16_name_text n [] hn).1
  rw [List.append_nil] at h1 h2
  rw [h1, h2] at h
  simp only [ok.injEq, Prod.mk.injEq] at h
  have a := strToNameGen_text false m hm
  have b := strToNameGen_text false n hn
  rw [h.2, b] at a
  simp only [ok.injEq, CName.mk.injEq, caseName_false] at a
  exact (wire_inj hn.1 hm.1 a.2).symm

/-! ## C17, C18 -/

theorem strToNameGen_sound (s : List UInt8) (dc : Bool) (h0 : ∀ c ∈ s, c ≠ 0) :
    (∃ n : Name, (∀ l ∈ n, 1 ≤ l.length) ∧ (wire n).length ≤ 255 ∧
      strToNameGen s dc = ok ⟨(wire n).length, wire n⟩) ∨
    strToNameGen s dc = err .parseError ∨ strToNameGen s dc = err .nameOverflow ∨
    (strToNameGen s dc = ub ∧ trailingBackslashes s % 2 = 1) := by
  unfold strToNameGen
  split
  · left; exact ⟨[], by simp, by simp [wire], by simp [wire]⟩
  · rename_i h
    have := stnLoop_sound (str := s) (dc := dc) h0 (s.length + 2) 0 [] [] (by simp) (by simp [labs]) (by omega)
      (by intro h'; rw [not_or] at h; exact absurd h'.symm h.1) (by omega)
    simp only [labs, List.length_nil, List.nil_append, List.drop_zero] at this
    rcases this with ⟨n, a, b, _, e⟩ | e | e | e
    · exact .inl ⟨n, a, b, by simpa [maxlenName] using e⟩
    · exact .inr (.inl (by simpa [maxlenName] using e))
    · exact .inr (.inr (.inl (by simpa [maxlenName] using e)))
    · exact .inr (.inr (.inr ⟨by simpa [maxlenName] using e.1, e.2⟩))

/-- **C17, partial.** Whenever `wdns_str_to_name` or `wdns_str_to_name_case` succeeds on a C string, the
result is the wire form of a sequence of non-empty labels, of at most 255 octets, with `len` its length.
Missing: labels may be longer than 63 octets (`C17_parsed_wellformed_violated`). -/
theorem C17_parsed_wellformed_partial (s : List UInt8) (h0 : ∀ c ∈ s, c ≠ 0) (c : CName)
    (h : strToName s = ok c ∨ strToNameCase s = ok c) :
    ∃ n : Name, (∀ l ∈ n, 1 ≤ l.length) ∧ (wire n).length ≤ 255 ∧ c = ⟨(wire n).length, wire n⟩ ∧
      ((∀ l ∈ n, l.length ≤ 63) → WF n) := by
  have : ∃ dc, strToNameGen s dc = ok c := by
    rcases h with h | h
    · exact ⟨true, h⟩
    · exact ⟨false, h⟩
  obtain ⟨dc, h⟩ := this
  rcases strToNameGen_sound s dc h0 with ⟨n, a, b, e⟩ | e | e | e
  · rw [h] at e
    simp only [ok.injEq] at e
    exact ⟨n, a, b, e, fun h => ⟨fun l hl => ⟨a l hl, h l hl⟩, b⟩⟩
  · rw [h] at e; simp at e
  · rw [h] at e; simp at e
  · rw [h] at e; simp at e

/-- A case of `C17_parsed_wellformed_partial`. -/
example : ∃ n : Name, (∀ l ∈ n, 1 ≤ l.length) ∧ (⟨7, [3, 97, 98, 99, 1, 100, 0]⟩ : CName) = ⟨(wire n).length, wire n⟩ := by
  obtain ⟨n, h1, -, h2, -⟩ := C17_parsed_wellformed_partial (ascii "aBc.D") (by decide) ⟨7, [3, 97, 98, 99, 1, 100, 0]⟩ (.inl (by decide +kernel))
  exact ⟨n, h1, h2⟩

/-- **C17 is violated**: a label of 64 characters is accepted, with length octet 64. -/
theorem C17_parsed_wellformed_violated :
    strToNameCase (List.replicate 64 97) = ok ⟨66, 64 :: List.replicate 64 97 ++ [0]⟩ := by
  decide +kernel

/-- **C18, partial.** If the text does not end in an unpaired backslash (an even number of trailing
backslashes), both scanners return, accessing only the text with its NUL and the 255 byte block.
Missing: a text ending in an unpaired backslash (`C18_scan_safe_violated`). -/
theorem C18_scan_safe_partial (s : List UInt8) (h0 : ∀ c ∈ s, c ≠ 0)
    (hb : trailingBackslashes s % 2 = 0) :
    (strToName s).Returns ∧ (strToNameCase s).Returns := by
  have : ∀ dc, (strToNameGen s dc).Returns := by
    intro dc
    rcases strToNameGen_sound s dc h0 with ⟨n, a, b, e⟩ | e | e | e
    · rw [e]; simp
    · rw [e]; simp
    · rw [e]; simp
    · omega
  exact ⟨this true, this false⟩

/-- A case of `C18_scan_safe_partial`: two backslashes at the end. -/
example : (strToName (ascii "a\\\\")).Returns := (C18_scan_safe_partial (ascii "a\\\\") (by decide) (by decide)).1

/-- **C18 (writes).** On every text, no write beyond the first 255 bytes of the allocated block is ever
attempted: with a larger block the behaviour would be exactly the same. -/
theorem C18_scan_writes (s : List UInt8) (h0 : ∀ c ∈ s, c ≠ 0) (dc : Bool) (cap : Nat) (hcap : 255 ≤ cap) :
    stnLoop cap s dc (s.length + 2) 0 s.length 0 1 [0] 0 =
    stnLoop 255 s dc (s.length + 2) 0 s.length 0 1 [0] 0 := by
  have := stnLoop_cap (dc := dc) h0 hcap (s.length + 2) 0 0 1 [0] 0 (by simp) (by omega) (by omega) (by omega)
  simpa using this

/-- **C18 is violated**: the text `a\` makes the scanner read past its terminating NUL. -/
theorem C18_scan_safe_violated : strToName (ascii "a\\") = ub := by decide

example : trailingBackslashes (ascii "a\\\\") = 2 ∧ strToName (ascii "a\\\\") = ok ⟨4, [2, 97, 92, 0]⟩ := by
  decide

theorem mem_length_lt_wire {n : Name} {l : Label} (h : l ∈ n) : l.length < (wire n).length := by
  induction n with
  | nil => simp at h
  | cons a n ih =>
    simp only [wire, List.length_cons, List.length_append]
    rcases List.mem_cons.mp h with rfl | h
    · omega
    · have := ih h; omega

/-! ## C19 -/

/-- **C19 (all texts).** On every text the two scanners fail in the same way, and when they succeed the
results agree up to letter case. -/
theorem C19_scan_same_up_to_case (s : List UInt8) (h0 : ∀ c ∈ s, c ≠ 0) :
    lowOut (strToName s) = lowOut (strToNameCase s) := by
  unfold strToName strToNameCase strToNameGen
  split
  · rfl
  · have := stnLoop_lower h0 (s.length + 2) 0 0 1 [0] [0] 0 rfl (by omega) (by omega)
    simpa [maxlenName] using this

/-- A case of `C19_scan_same_up_to_case`: an escaped capital, which the lower-casing scanner keeps. -/
example : lowOut (strToName (ascii "\\065B")) = lowOut (strToNameCase (ascii "\\065B")) ∧ strToName (ascii "\\065B") = ok ⟨4, [2, 65, 98, 0]⟩ :=
  ⟨C19_scan_same_up_to_case _ (by decide), by decide +kernel⟩

/-- **C19, partial.** For a text without backslashes, `wdns_str_to_name` gives exactly
`wdns_str_to_name_case` followed by `wdns_downcase_name`, whenever the latter's result is well-formed; and
it fails exactly when the latter does, with the same code.
Missing: escaped upper-case letters (`C19_scan_downcase_violated`), labels longer than 63 octets. -/
theorem C19_scan_downcase_partial (s : List UInt8) (h0 : ∀ c ∈ s, c ≠ 0) (hb : ∀ c ∈ s, c.toNat ≠ 92) :
    (∀ n, WF n → strToNameCase s = ok ⟨(wire n).length, wire n⟩ →
      strToName s = (strToNameCase s >>= downcaseName)) ∧
    ((∀ c, strToNameCase s ≠ ok c) → strToName s = strToNameCase s) := by
  unfold strToName strToNameCase strToNameGen
  split
  · refine ⟨fun n hn h => by rfl, fun h => absurd rfl (h _)⟩
  · have := stnLoop_plain h0 hb (s.length + 2) 0 [] [] (by omega) (by omega) (by simp)
      (by intro h; rename_i h'; rw [not_or] at h'; exact absurd h.symm h'.1)
    simp only [labs, List.length_nil, List.nil_append, List.map_nil, lowerName, List.map_nil] at this
    have e : maxlenName = 255 := rfl
    simp only [e]
    simp only [Nat.zero_add, Nat.add_zero, Int.natCast_zero, Int.sub_zero] at this
    rcases this with ⟨k, n', p1, p2, a, b⟩ | ⟨a, b⟩
    · constructor
      · intro n hn h
        rw [a] at h
        simp only [ok.injEq, CName.mk.injEq] at h
        obtain ⟨rfl, hw⟩ := h
        rw [a, b, ok_bind]
        obtain ⟨c', h1, h2⟩ := C14_downcase_name ⟨(wire n).length, wire n⟩ n ⟨hn, rfl, List.prefix_rfl⟩
        have hd : downcaseName ⟨(wire n).length, wire n⟩ = ok ⟨(wire n).length, (wire n).map lower⟩ := by
          simp only [downcaseName]
          rw [downcaseBytes_spec _ _ (Nat.le_refl _)]
          simp
        rw [hw, hd, ← hw]
        -- the two wire forms have the same labels
        have hwl : (wire n').map lower = wire (n'.map (fun l => l.map lower)) := by
          have hinj : n' = n := by
            clear a b h1 h2 hd
            have key : ∀ (n' n : Name), (∀ l ∈ n, LabelOK l) → (∀ l ∈ n', l.length < 256) →
                (∀ l ∈ n', 1 ≤ l.length) → wire n' = wire n → n' = n := by
              intro n'
              induction n' with
              | nil =>
                intro n hn _ _ h
                cases n with
                | nil => rfl
                | cons l n =>
                  simp only [wire, List.cons.injEq] at h
                  have e := ofNat_label_toNat (hn l (by simp))
                  have := (hn l (by simp)).1
                  rw [← h.1] at e; simp at e; omega
              | cons l' n' ih =>
                intro n hn hs hp h
                have l256 := hs l' (by simp)
                have l1 := hp l' (by simp)
                cases n with
                | nil =>
                  simp only [wire, List.cons.injEq] at h
                  have := congrArg UInt8.toNat h.1
                  simp at this; omega
                | cons l n =>
                  simp only [wire, List.cons.injEq] at h
                  have e := ofNat_label_toNat (hn l (by simp))
                  have hl : l'.length = l.length := by
                    rw [← h.1] at e; simp at e; omega
                  obtain ⟨g1, g2⟩ := List.append_inj h.2 hl
                  rw [g1, ih n (fun l hm => hn l (by simp [hm])) (fun l hm => hs l (by simp [hm]))
                    (fun l hm => hp l (by simp [hm])) g2]
            exact key n' n hn.1 (fun l hl => by have := mem_length_lt_wire hl; omega) p1 hw
          rw [hinj, wire_lower n hn.1]; rfl
        rw [hwl]
      · intro h; exact absurd a (h _)
    · exact ⟨fun n _ h => absurd h (a _), fun _ => b⟩

/-- **C19 is violated** by escaped upper-case letters: `\\A` stays `A`. -/
theorem C19_scan_downcase_violated :
    strToName (ascii "\\A") = ok ⟨3, [1, 65, 0]⟩ ∧
    (strToNameCase (ascii "\\A") >>= downcaseName) = ok ⟨3, [1, 97, 0]⟩ := by decide

/-- **C19 is violated** by labels of 65 to 90 characters, which both scanners accept (C17): `wdns_downcase_name` takes the length
octet for a capital letter. -/
theorem C19_long_label_violated :
    strToName (List.replicate 65 97) = ok ⟨67, 65 :: List.replicate 65 97 ++ [0]⟩ ∧
    (strToNameCase (List.replicate 65 97) >>= downcaseName) = ok ⟨67, 97 :: List.replicate 65 97 ++ [0]⟩ := by
  decide +kernel

example : strToName (ascii "aBc.D") = (strToNameCase (ascii "aBc.D") >>= downcaseName) ∧
    strToName (ascii "aBc.D") = ok ⟨7, [3, 97, 98, 99, 1, 100, 0]⟩ := by decide +kernel

/-! ## C20 -/

/-- **C20 (trailing dot).** For every non-empty text without backslash that does not end in a dot, both
scanners give the same result with and without a trailing dot. -/
theorem C20_trailing_dot (s : List UInt8) (h0 : ∀ c ∈ s, c ≠ 0) (hb : ∀ c ∈ s, c.toNat ≠ 92)
    (hne : s ≠ []) (hlast : s.getLast? ≠ some 46) :
    strToName (s ++ [46]) = strToName s ∧ strToNameCase (s ++ [46]) = strToNameCase s := by
  have hpos := List.length_pos_iff.mpr hne
  have : ∀ dc, strToNameGen (s ++ [46]) dc = strToNameGen s dc := by
    intro dc
    unfold strToNameGen
    rw [if_neg, if_neg]
    · have h1 := stnLoop_trailing_dot (dc := dc) h0 hb hlast (s.length + 3) 0 0 1 [0] 0 (by omega)
        (by omega) (by omega) (by omega)
      have h2 := stnLoop_fuel_plain (dc := dc) h0 hb (s.length + 2) 0 0 1 [0] 0 (by omega) (by omega)
      simp only [Int.natCast_zero, Int.sub_zero] at h1 h2
      rw [h2] at h1
      have e : (s ++ [46] : List UInt8).length = s.length + 1 := by simp
      rw [e] at h1 ⊢
      exact h1
    · rintro (h | ⟨h, h'⟩)
      · omega
      · apply hlast
        obtain ⟨c, rfl⟩ := List.length_eq_one_iff.mp h
        simpa using h'
    · rintro (h | ⟨h, h'⟩) <;> simp at h
      exact hne h
  exact ⟨this true, this false⟩

example : strToName (ascii "www.Example.com.") = strToName (ascii "www.Example.com") := by decide +kernel

/-- **C20 (empty labels).** A text without backslashes that has a dot directly after another dot, or at
the start with more text behind it, is rejected as a parse error or an overflow. -/
theorem C20_empty_label_rejected (s : List UInt8) (h0 : ∀ c ∈ s, c ≠ 0) (hb : ∀ c ∈ s, c.toNat ≠ 92)
    (h : (∃ a b, s = a ++ 46 :: 46 :: b) ∨ (∃ b, b ≠ [] ∧ s = 46 :: b)) (dc : Bool) :
    strToNameGen s dc = err .parseError ∨ strToNameGen s dc = err .nameOverflow := by
  rcases strToNameGen_sound s dc h0 with ⟨n, _, _, e⟩ | e | e | ⟨_, e⟩
  · exfalso
    obtain ⟨k, hk, hk46, hk'⟩ : ∃ k, k < s.length ∧ s[k]? = some 46 ∧ (0 < k → s[k - 1]? = some 46) := by
      rcases h with ⟨a, b, rfl⟩ | ⟨b, _, rfl⟩
      · exact ⟨a.length + 1, by simp, by simp, fun _ => by simp⟩
      · exact ⟨0, by simp, by simp, by simp⟩
    have h2 : 2 ≤ s.length := by
      rcases h with ⟨a, b, rfl⟩ | ⟨b, hb', rfl⟩
      · simp; omega
      · have := List.length_pos_iff.mpr hb'; simp; omega
    unfold strToNameGen at e
    rw [if_neg (by omega)] at e
    rcases stn_reach (dc := dc) h0 hb k (s.length + 2) 0 0 1 [0] 0 (by omega) (by omega) with
      g | ⟨ll', len', data', oc', a, b, g⟩
    · exact g _ (by simpa [maxlenName] using e)
    · have hll : ll' = 0 := by
        by_cases hk0 : k = 0
        · exact a hk0
        · exact b (by omega) (by simpa using hk' (by omega))
      obtain ⟨f, hf⟩ : ∃ f, s.length + 2 - k = f + 1 := ⟨s.length + 1 - k, by omega⟩
      rw [hf, Nat.zero_add, stn_dot hk46 (by omega) (by rfl), hll] at g
      simp only [Int.natCast_zero, Int.sub_zero] at g
      simp only [maxlenName] at e
      rw [e] at g
      split_ifs at g
      all_goals simp at g
  · exact .inl e
  · exact .inr e
  · exfalso
    have : trailingBackslashes s = 0 := by
      unfold trailingBackslashes
      rw [List.length_eq_zero_iff]
      cases hr : s.reverse with
      | nil => rfl
      | cons c t =>
        have := hb c (List.mem_reverse.mp (by rw [hr]; simp))
        rw [List.takeWhile_cons_of_neg]
        simp only [beq_iff_eq]
        intro e; rw [e] at this; exact this rfl
    omega

example : strToName (ascii "a..b") = err .parseError ∧ strToName (ascii ".a") = err .parseError := by
  decide

end Wdns
