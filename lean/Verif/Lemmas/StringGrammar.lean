import Verif.Spec.StringGrammar
import Verif.Lemmas.NameGrammar
import Verif.Lemmas.ScanSafe
import Verif.Lemmas.ScanFields

namespace Wdns
open Outcome Spec

theorem digitChar_iff (c : UInt8) : isDigit c = true ↔ DigitChar c := by simp [isDigit, DigitChar]

theorem charsRead_plain_blank {c : UInt8} (h1 : 32 ≤ c.toNat) (h2 : c.toNat ≤ 126) (h3 : c ≠ 32) : isSpace c = false := by
  cases h : isSpace c with
  | false => rfl
  | true =>
    rw [isSpace_iff] at h
    rcases h with h | h
    · exact absurd (UInt8.toNat_inj.mp (show c.toNat = (32 : UInt8).toNat from h)) h3
    · omega

theorem fss_quote (q : Bool) (d : UInt8) (t u : List UInt8) (n : Nat) (h : d = 34 ∨ d = 92) :
    fssLoop q (92 :: d :: t) u n = fssLoop q t (u ++ [d]) (n + 2) := by
  rw [fssLoop.eq_def]
  simp only
  rw [if_neg (by decide +revert), if_neg (by decide +revert), if_pos trivial, if_pos h]

theorem fss_ddd (q : Bool) {d e g : UInt8} (hd : DigitChar d) (he : DigitChar e) (hg : DigitChar g) (hv : three d e g ≤ 255)
    (t u : List UInt8) (n : Nat) :
    fssLoop q (92 :: d :: e :: g :: t) u n = fssLoop q t (u ++ [UInt8.ofNat (three d e g)]) (n + 4) := by
  rw [fssLoop.eq_def]
  simp only
  rw [if_neg (by decide +revert), if_neg (by decide +revert), if_pos trivial,
    if_neg (by rintro (rfl | rfl) <;> revert hd <;> unfold DigitChar <;> decide), if_pos ((digitChar_iff d).mpr hd),
    if_pos ⟨(digitChar_iff e).mpr he, (digitChar_iff g).mpr hg⟩]
  rw [if_neg (by unfold three at hv; omega)]
  rfl

/-- The scanner takes any text of the grammar. -/
theorem fss_complete {q : Bool} {t w : List UInt8} (h : CharsRead q t w) : ∀ (tail u : List UInt8) (n : Nat),
    fssLoop q (t ++ tail) u n = fssLoop q tail (u ++ w) (n + t.length) := by
  induction h with
  | nil => intro tail u n; simp
  | @plain c t w h1 h2 h3 h4 h5 _ ih =>
    intro tail u n
    rw [List.cons_append, fssLoop.eq_def]
    simp only
    rw [if_neg (by rintro ⟨hq, hc⟩; exact h4 hq hc), if_neg (by
      rintro ⟨hq, hc⟩
      rw [charsRead_plain_blank h1 h2 (h5 (by simpa using hq))] at hc
      cases hc), if_neg h3, if_pos ⟨h1, h2⟩, ih]
    congr 1 <;> simp <;> omega
  | @esc d t w h1 _ ih =>
    intro tail u n
    rw [List.cons_append, List.cons_append, fss_quote q d _ u n h1, ih]
    congr 1 <;> simp <;> omega
  | @ddd d e g t w h1 h2 h3 h4 _ ih =>
    intro tail u n
    rw [List.cons_append, List.cons_append, List.cons_append, List.cons_append, fss_ddd q h1 h2 h3 h4, ih]
    congr 1 <;> simp <;> omega

/-- Whatever the scanner takes is text of the grammar. -/
theorem fss_sound (q : Bool) (s u : List UInt8) (n : Nat) (h : (fssLoop q s u n).1 = true) :
    ∃ t w tail, s = t ++ tail ∧ CharsRead q t w ∧ (fssLoop q s u n).2.2 = u ++ w ∧
      if q then ∃ rest, tail = 34 :: rest ∧ (fssLoop q s u n).2.1 = n + t.length + 1
      else (∀ c, tail.head? = some c → IsBlank c) ∧ (fssLoop q s u n).2.1 = n + t.length := by
  fun_induction fssLoop q s u n with
  | case1 u n =>
    have hq : q = false := by simpa using h
    subst hq
    exact ⟨[], [], [], rfl, .nil, by simp, by simp⟩
  | case2 c cs u n hc =>
    obtain ⟨hq, rfl⟩ := hc
    refine ⟨[], [], 34 :: cs, rfl, .nil, by simp, ?_⟩
    rw [if_pos hq]
    exact ⟨cs, rfl, by simp⟩
  | case3 c cs u n h1 h2 =>
    refine ⟨[], [], c :: cs, rfl, .nil, by simp, ?_⟩
    rw [if_neg h2.1]
    exact ⟨by simpa using (isSpace_iff c).mp h2.2, by simp⟩
  | case4 => simp at h
  | case5 u n d ds hd h1 h2 ih =>
    obtain ⟨t, w, tail, rfl, e2, e3, e4⟩ := ih h
    refine ⟨92 :: d :: t, d :: w, tail, rfl, .esc hd e2, by rw [e3]; simp, ?_⟩
    cases q with
    | true =>
      rw [if_pos rfl] at e4 ⊢
      obtain ⟨rest, e4, e5⟩ := e4
      exact ⟨rest, e4, by rw [e5]; simp; omega⟩
    | false =>
      rw [if_neg Bool.false_ne_true] at e4 ⊢
      exact ⟨e4.1, by rw [e4.2]; simp; omega⟩
  | case6 => simp at h
  | case7 u n d hd hdig e f fs hef v hv h1 h2 ih =>
    obtain ⟨t, w, tail, rfl, e2, e3, e4⟩ := ih h
    have hdd := CharsRead.ddd ((digitChar_iff d).mp hdig) ((digitChar_iff e).mp hef.1) ((digitChar_iff f).mp hef.2)
      (by show v ≤ 255; omega) e2
    refine ⟨92 :: d :: e :: f :: t, UInt8.ofNat v :: w, tail, rfl, hdd, by rw [e3]; simp, ?_⟩
    cases q with
    | true =>
      rw [if_pos rfl] at e4 ⊢
      obtain ⟨rest, e4, e5⟩ := e4
      exact ⟨rest, e4, by rw [e5]; simp; omega⟩
    | false =>
      rw [if_neg Bool.false_ne_true] at e4 ⊢
      exact ⟨e4.1, by rw [e4.2]; simp; omega⟩
  | case8 => simp at h
  | case9 => simp at h
  | case10 => simp at h
  | case11 c cs u n h1 h2 h3 h4 ih =>
    obtain ⟨t, w, tail, rfl, e2, e3, e4⟩ := ih h
    have hp := CharsRead.plain h4.1 h4.2 h3 (fun hq hc => h1 ⟨hq, hc⟩) (fun hq hc => h2 ⟨by simp [hq], by rw [hc]; rfl⟩) e2
    refine ⟨c :: t, c :: w, tail, rfl, hp, by rw [e3]; simp, ?_⟩
    cases q with
    | true =>
      rw [if_pos rfl] at e4 ⊢
      obtain ⟨rest, e4, e5⟩ := e4
      exact ⟨rest, e4, by rw [e5]; simp; omega⟩
    | false =>
      rw [if_neg Bool.false_ne_true] at e4 ⊢
      exact ⟨e4.1, by rw [e4.2]; simp; omega⟩
  | case12 => simp at h

/-- The string scanner accepts exactly the grammar. -/
theorem fromStr_complete {s w rest : List UInt8} (h : StringReads s w rest) (u : List UInt8) :
    ∃ k, k ≠ 0 ∧ rdataFromStrString s u = (k, u ++ w) ∧ s.drop k = rest ∧ k ≤ s.length := by
  cases h with
  | @quoted t w rest ht =>
    refine ⟨t.length + 2, by omega, ?_, by simp, by simp⟩
    have h2 : fssLoop true (t ++ 34 :: rest) u 1 = (true, t.length + 2, u ++ w) := by
      rw [fss_complete ht, fssLoop.eq_def]
      simp only
      rw [if_pos ⟨trivial, trivial⟩]
      simp; omega
    unfold rdataFromStrString
    simp only [List.cons_append, List.drop_succ_cons, List.drop_zero, h2, List.head?_cons, if_true]
  | @bare t w rest ht hne hq hb =>
    have hl : t.length ≠ 0 := by simpa using hne
    refine ⟨t.length, hl, ?_, by simp, by simp⟩
    have h2 : fssLoop false (t ++ rest) u 0 = (true, t.length, u ++ w) := by
      rw [fss_complete ht, fssLoop.eq_def]
      cases rest with
      | nil => simp
      | cons c cs =>
        simp only
        rw [if_neg (by simp), if_pos ⟨by simp, (isSpace_iff c).mpr (hb c rfl)⟩]
        simp
    unfold rdataFromStrString
    have hh : (t ++ rest).head? ≠ some 34 := by
      cases t with
      | nil => exact absurd rfl hne
      | cons c t => simpa using hq
    rw [if_neg hh]
    simp only [h2, if_true]

theorem fromStr_sound {s u u' : List UInt8} {k : Nat} (h : rdataFromStrString s u = (k, u')) (hk : k ≠ 0) :
    ∃ w, StringReads s w (s.drop k) ∧ u' = u ++ w := by
  unfold rdataFromStrString at h
  by_cases hs : s.head? = some 34
  · obtain ⟨t, rfl⟩ : ∃ t, s = 34 :: t := by
      cases s with
      | nil => simp at hs
      | cons c t => simp at hs; exact ⟨t, by rw [hs]⟩
    rw [if_pos hs] at h
    simp only [List.drop_succ_cons, List.drop_zero] at h
    by_cases hr : (fssLoop true t u 1).1 = true
    · rw [if_pos hr] at h
      obtain ⟨x, w, tail, e1, e2, e3, e4⟩ := fss_sound true t u 1 hr
      rw [if_pos rfl] at e4
      obtain ⟨rest, e4, e5⟩ := e4
      rw [h] at e3 e5
      simp only at e3 e5
      refine ⟨w, ?_, e3⟩
      subst e5 e1 e4
      have : (34 :: (x ++ 34 :: rest)).drop (1 + x.length + 1) = rest := by
        rw [show 1 + x.length + 1 = (x.length + 1) + 1 by omega]
        simp
      rw [this]
      exact .quoted e2
    · rw [if_neg hr] at h
      exact absurd (congrArg Prod.fst h).symm hk
  · rw [if_neg hs] at h
    simp only at h
    by_cases hr : (fssLoop false s u 0).1 = true
    · rw [if_pos hr] at h
      obtain ⟨x, w, tail, e1, e2, e3, e4⟩ := fss_sound false s u 0 hr
      rw [if_neg Bool.false_ne_true] at e4
      rw [h] at e3 e4
      simp only at e3 e4
      refine ⟨w, ?_, e3⟩
      have hkx : k = x.length := by omega
      subst hkx e1
      have hx : x ≠ [] := by rintro rfl; exact hk rfl
      simp only [List.drop_left]
      refine .bare e2 hx ?_ e4.1
      cases x with
      | nil => exact absurd rfl hx
      | cons c x => simpa using hs
    · rw [if_neg hr] at h
      exact absurd (congrArg Prod.fst h).symm hk

theorem stringReads_det {s w rest w' rest' : List UInt8} (h : StringReads s w rest) (h' : StringReads s w' rest') :
    w = w' ∧ rest = rest' := by
  obtain ⟨k, -, e1, e2, -⟩ := fromStr_complete h []
  obtain ⟨k', -, e1', e2', -⟩ := fromStr_complete h' []
  rw [e1] at e1'
  simp only [List.nil_append, Prod.mk.injEq] at e1'
  obtain ⟨rfl, rfl⟩ := e1'
  exact ⟨rfl, by rw [← e2, ← e2']⟩

/-- A string longer than 255 octets, or no string at all, is refused by the callers. -/
theorem fromStr_fail {s u : List UInt8} (h : ∀ w rest, ¬ StringReads s w rest) : (rdataFromStrString s u).1 = 0 := by
  by_cases hk : (rdataFromStrString s u).1 = 0
  · exact hk
  · obtain ⟨w, hw, -⟩ := fromStr_sound (u := u) (k := (rdataFromStrString s u).1) (u' := (rdataFromStrString s u).2) rfl hk
    exact absurd hw (h _ _)

theorem strToUbuf_complete {s w rest : List UInt8} (h : StringReads s w rest) (hl : w.length ≤ 255) (u : List UInt8) :
    strToUbuf s u = (.success, rest, u ++ encString w) := by
  obtain ⟨k, e0, e1, e2, -⟩ := fromStr_complete h (u ++ [0])
  unfold strToUbuf
  simp only [e1, if_neg e0]
  rw [if_neg (by simp; omega), set_after, e2]
  simp only [List.length_append, List.length_singleton]
  rw [show u.length + 1 + w.length - u.length - 1 = w.length by omega]
  rfl

theorem strToUbuf_sound {s u s' u' : List UInt8} (h : strToUbuf s u = (.success, s', u')) :
    ∃ w, StringReads s w s' ∧ w.length ≤ 255 ∧ u' = u ++ encString w := by
  by_cases hk : (rdataFromStrString s (u ++ [0])).1 = 0
  · unfold strToUbuf at h
    simp only [if_pos hk] at h
    cases h
  · obtain ⟨w, hw, -⟩ := fromStr_sound (u := u ++ [0]) (k := (rdataFromStrString s (u ++ [0])).1) (u' := (rdataFromStrString s (u ++ [0])).2) rfl hk
    by_cases hl : w.length ≤ 255
    · rw [strToUbuf_complete hw hl] at h
      simp only [Prod.mk.injEq, true_and] at h
      rw [← h.1]
      exact ⟨w, hw, hl, h.2.symm⟩
    · obtain ⟨k, e0, e1, e2, -⟩ := fromStr_complete hw (u ++ [0])
      unfold strToUbuf at h
      simp only [e1, if_neg e0] at h
      rw [if_pos (by simp; omega)] at h
      cases h

theorem sRepstring_complete {s : List UInt8} {ws : List (List UInt8)} (h : TxtReads s ws) : ∀ (fuel : Nat) (u : List UInt8),
    s.length < fuel → sRepstring fuel s u = ok (.go (some []) (u ++ ws.flatMap encString)) := by
  induction h with
  | nil =>
    intro fuel u hf
    obtain ⟨fuel, rfl⟩ := Nat.exists_eq_add_one_of_ne_zero (Nat.ne_of_gt hf)
    simp [sRepstring]
  | @blank c s ws hc _ ih =>
    intro fuel u hf
    obtain ⟨fuel, rfl⟩ := Nat.exists_eq_add_one_of_ne_zero (n := fuel) (by omega)
    rw [sRepstring]
    simp only
    rw [if_pos ((isSpace_iff c).mpr hc), ih fuel u (by simp at hf; omega)]
  | @cons s w rest ws hb hs hl _ ih =>
    intro fuel u hf
    obtain ⟨fuel, rfl⟩ := Nat.exists_eq_add_one_of_ne_zero (n := fuel) (by omega)
    obtain ⟨k, e0, e1, e2, e3⟩ := fromStr_complete hs (u ++ [0])
    have hlr : rest.length < s.length := by rw [← e2]; simp; omega
    cases s with
    | nil => simp at hlr
    | cons c s =>
      rw [sRepstring]
      simp only
      have hc : isSpace c = false := by
        cases h : isSpace c with
        | false => rfl
        | true => exact absurd ((isSpace_iff c).mp h) (hb c rfl)
      rw [hc]
      simp only [Bool.false_eq_true, if_false, e1, if_neg e0]
      rw [if_neg (by simp; omega), set_after, e2, ih fuel _ (by simp at hf hlr; omega)]
      simp only [List.length_append, List.length_singleton]
      rw [show u.length + 1 + w.length - u.length - 1 = w.length by omega]
      simp [encString]

theorem sRepstring_sound : ∀ (fuel : Nat) (s u : List UInt8) (s' : Option (List UInt8)) (u' : List UInt8),
    sRepstring fuel s u = ok (.go s' u') → ∃ ws, TxtReads s ws ∧ u' = u ++ ws.flatMap encString ∧ s' = some []
  | 0, s, u, s', u', h => by simp [sRepstring] at h
  | fuel + 1, s, u, s', u', h => by
    cases s with
    | nil =>
      simp only [sRepstring, ok.injEq, FRes.go.injEq] at h
      exact ⟨[], .nil, by rw [← h.2]; simp, h.1.symm⟩
    | cons c s =>
      rw [sRepstring] at h
      simp only at h
      by_cases hc : isSpace c = true
      · rw [if_pos hc] at h
        obtain ⟨ws, e1, e2⟩ := sRepstring_sound fuel s u s' u' h
        exact ⟨ws, .blank ((isSpace_iff c).mp hc) e1, e2⟩
      · rw [if_neg hc] at h
        have hb : ∀ d, (c :: s).head? = some d → ¬ IsBlank d := by
          intro d hd
          simp only [List.head?_cons, Option.some.injEq] at hd
          rw [← hd, ← isSpace_iff]
          exact hc
        by_cases hk : (rdataFromStrString (c :: s) (u ++ [0])).1 = 0
        · rw [if_pos hk] at h; simp at h
        · rw [if_neg hk] at h
          obtain ⟨w, hw, hu⟩ := fromStr_sound (u := u ++ [0]) (k := (rdataFromStrString (c :: s) (u ++ [0])).1)
            (u' := (rdataFromStrString (c :: s) (u ++ [0])).2) rfl hk
          rw [hu] at h
          by_cases hl : w.length ≤ 255
          · rw [if_neg (by simp; omega), set_after] at h
            simp only [List.length_append, List.length_singleton] at h
            rw [show u.length + 1 + w.length - u.length - 1 = w.length by omega] at h
            obtain ⟨ws, e1, e2, e3⟩ := sRepstring_sound fuel _ _ s' u' h
            refine ⟨w :: ws, .cons hb hw hl e1, ?_, e3⟩
            rw [e2]; simp [encString]
          · rw [if_pos (by simp; omega)] at h
            simp at h

end Wdns
