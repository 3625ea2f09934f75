import Verif.Lemmas.ScanSafe

/-!
# Reading rdata from arbitrary text is defined (C69)
-/

namespace Wdns
open Outcome Spec

theorem sUnknown_safe (s u : List UInt8) (hb : NoBlankEnd s) : ∃ r, sUnknown s u = ok r := by
  unfold sUnknown
  split
  · exact ⟨_, rfl⟩
  · simp only
    split
    · rename_i h2 hsp
      split
      · rename_i hd
        generalize ht : (s.drop 2).dropWhile isSpace = t at hd ⊢
        have hne : t ≠ [] := by
          rintro rfl
          have hall : scanfHex2 (s.drop 2) = .eof := by unfold scanfHex2; rw [ht]
          refine scanfHex2_ne_eof ?_ (NoBlankEnd.suffix hb (List.drop_suffix _ _)) hall
          intro h; rw [h] at hsp; simp at hsp
        have hhead : ∀ c, t.head? = some c → isSpace c = false := by
          intro c hc
          have := List.head?_dropWhile_not isSpace (s.drop 2)
          rw [ht, hc] at this
          simpa using this
        have : ∃ v, scanfU 16 t = .val v := by
          cases t with
          | nil => contradiction
          | cons c cs =>
            have hc := hhead c rfl
            rw [List.takeWhile_cons, if_pos (by simp [hc])] at hd
            simp only [List.all_cons, Bool.and_eq_true] at hd
            have hn : 48 ≤ c.toNat ∧ c.toNat ≤ 57 := by simpa [isDigit] using hd.1
            unfold scanfU
            have e : (c :: cs).dropWhile isSpace = c :: cs := by rw [List.dropWhile_cons, if_neg (by simp [hc])]
            rw [e, if_neg (by simp)]
            unfold scanInt
            rw [e]
            simp only
            rw [if_neg (by rintro rfl; revert hn; decide), if_neg (by rintro rfl; revert hn; decide), scanDigits, if_pos hn]
            have hsome : ∀ (l : List UInt8) (a : Nat), ∃ r, scanDigits a true l = some r := by
              intro l
              induction l with
              | nil => intro a; exact ⟨_, by rw [scanDigits]; rfl⟩
              | cons x xs ih =>
                intro a
                rw [scanDigits]
                split
                · exact ih _
                · exact ⟨_, rfl⟩
            obtain ⟨r, hr⟩ := hsome cs (0 * 10 + (c.toNat - 48))
            rw [hr]
            exact ⟨_, rfl⟩
        obtain ⟨v, hv⟩ := this
        rw [hv]
        simp only
        obtain ⟨r, hr⟩ := sGeneric_safe (t.drop (t.takeWhile fun c => !isSpace c).length) u 0
        rw [hr]
        simp only [ok_bind]
        split <;> exact ⟨_, rfl⟩
      · exact ⟨_, rfl⟩
    · exact ⟨_, rfl⟩

/-- **C69, partial.**  `wdns_str_to_rdata` on any C string, for every type and class: it returns, with an rdata or an error,
without accessing memory outside the text and without using an uninitialised variable — provided that
* if the type has a name field, no word of the text ends in an unpaired backslash,
* if the type has base64 or service parameters, the text has no `{` (plain or as `\123`),
* if the type has hexadecimal fields or an unknown layout, the text does not end in white space.

Missing: the texts excluded by these conditions, see `C69_violations`. -/
theorem C69_scan_defined_partial (s : List UInt8) (ty cls : Nat) (h0 : 0 ∉ s)
    (hk : ∀ d, recordDescr ty = some d → ScanOK d.types s) (hu : recordDescr ty = none → NoBlankEnd s) :
    (strToRdata s ty cls).Returns := by
  have fin : ∀ o : Outcome FRes, (∃ r, o = ok r) → Outcome.Returns (do
      let r ← (do
        let r ← o
        match r with
        | .go _ u => ok (Res.success, u)
        | .bad e u' => ok (e, u'.take ([] : List UInt8).length))
      if r.1 = .success then ok r.2 else err r.1) := by
    rintro o ⟨r, rfl⟩
    cases r <;> simp only [ok_bind] <;> split <;> simp
  unfold strToRdata strToRdataUbuf
  cases hd : recordDescr ty with
  | none => exact fin _ (sUnknown_safe s [] (hu hd))
  | some d =>
    simp only
    split
    · exact fin _ (sFields_safe d.types (some s) [] (descr_good hd) (by rintro s' hs; cases hs; exact ⟨h0, hk d hd⟩))
    · exact fin _ ⟨_, rfl⟩

/-- The conditions are met by an ordinary SVCB text with an escaped backslash at the end of a label. -/
example : ScanOK [.int16, .uname, .svcparams] (ascii "1 a\\\\.b\\\\ alpn=\"h2\" port=5") :=
  ⟨fun _ => by decide +kernel, fun _ => by unfold NoBrace; decide +kernel, fun h => absurd h (by decide)⟩

/-- Each condition is needed: a name ending in an unpaired backslash (NS), a brace in base64 (DNSKEY), a brace written `\123`
in a service parameter, white space at the end of hexadecimal digits (DS), of an NSEC3 salt, and after the marker of the
generic form. -/
theorem C69_violations :
    strToRdata (ascii "a\\") 2 1 = ub ∧
    strToRdata (ascii "1 2 3 {") 48 1 = ub ∧
    strToRdata (ascii "1 . ech=\"\\123\"") 64 1 = ub ∧
    strToRdata (ascii "1 2 3 0a  ") 43 1 = ub ∧
    strToRdata (ascii "1 0 1 0a\x0b\x0b") 51 1 = ub ∧
    strToRdata (ascii "\\# ") 65280 1 = ub := by decide +kernel

end Wdns
