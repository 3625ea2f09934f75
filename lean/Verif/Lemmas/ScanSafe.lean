import Verif.Spec.ScanSafe
import Verif.Lemmas.RoundTrip
import Verif.Props.Tables

namespace Wdns
open Outcome Spec

theorem isSpace_iff (c : UInt8) : isSpace c = true ↔ IsBlank c := by
  unfold isSpace IsBlank
  have : c = 32 ↔ c.toNat = 32 := by
    constructor
    · rintro rfl; rfl
    · intro h; exact UInt8.toNat_inj.mp h
  simp [this]

theorem isDelim_iff (c : UInt8) : isDelim c = true ↔ Separator c := by
  simp [isDelim, Separator]

/-! ## Suffixes -/

theorem Spec.NoBlankEnd.suffix {s t : List UInt8} (h : NoBlankEnd s) (ht : t <:+ s) : NoBlankEnd t := by
  obtain ⟨a, rfl⟩ := ht
  intro c hc
  refine h c ?_
  rw [List.getLast?_append, hc]
  rfl

theorem Spec.NoBrace.suffix {s t : List UInt8} (h : NoBrace s) (ht : t <:+ s) : NoBrace t :=
  ⟨fun hm => h.1 (ht.mem hm), fun hi => h.2 (hi.trans ht.isInfix)⟩

theorem Spec.NoBrace.tail {c : UInt8} {s : List UInt8} (h : NoBrace (c :: s)) : NoBrace s := NoBrace.suffix h (List.suffix_cons c s)

theorem Spec.Paired.ofSep {odd : Bool} {s : List UInt8} (h : Paired odd s) (hs : s = [] ∨ ∃ c cs, s = c :: cs ∧ Separator c) : Paired false s := by
  rcases hs with rfl | ⟨c, cs, rfl, hc⟩
  · rfl
  · have h92 : c ≠ 92 := by rintro rfl; revert hc; decide
    rw [Paired, if_neg h92, if_pos hc] at h ⊢
    exact ⟨rfl, h.2⟩

/-- Wherever the text is cut, some state holds. -/
theorem Spec.Paired.state {s : List UInt8} {odd : Bool} (h : Paired odd s) {t : List UInt8} (ht : t <:+ s) : ∃ o, Paired o t := by
  induction s generalizing odd with
  | nil =>
    have : t = [] := List.suffix_nil.mp ht
    subst this
    exact ⟨odd, h⟩
  | cons c cs ih =>
    rcases List.suffix_cons_iff.mp ht with rfl | ht
    · exact ⟨odd, h⟩
    · rw [Paired] at h
      split at h
      · exact ih h ht
      · split at h
        · exact ih h.2 ht
        · exact ih h ht

theorem Spec.Paired.afterTok {s : List UInt8} (h : Paired false s) : Paired false (afterTok s) := by
  obtain ⟨o, ho⟩ := Paired.state h (List.dropWhile_suffix (l := s) fun c => !isDelim c)
  refine Paired.ofSep ho ?_
  cases e : s.dropWhile (fun c => !isDelim c) with
  | nil => exact Or.inl e
  | cons c cs =>
    refine Or.inr ⟨c, cs, e, (isDelim_iff c).mp ?_⟩
    have := List.head?_dropWhile_not (p := fun c => !isDelim c) (l := s)
    rw [e] at this
    simpa using this

theorem Spec.Paired.blank {c : UInt8} {s : List UInt8} (h : Paired false (c :: s)) (hc : c ≠ 92) : Paired false s := by
  rw [Paired, if_neg hc] at h
  split at h
  · exact h.2
  · exact h

theorem Spec.Paired.dropBlank {s : List UInt8} (h : Paired false s) : Paired false (s.dropWhile isSpace) := by
  induction s with
  | nil => exact h
  | cons c cs ih =>
    rw [List.dropWhile_cons]
    split
    · rename_i hc
      exact ih (Paired.blank h (by rintro rfl; revert hc; decide))
    · exact h

/-- A word of a paired text does not end in an unpaired backslash. -/
theorem Spec.Paired.tokGo : ∀ (s : List UInt8) (odd : Bool), Paired odd s →
    trailingBackslashes ((if odd then [92] else []) ++ tokOf s) % 2 = 0 := by
  intro s
  induction s with
  | nil =>
    intro odd h
    have : odd = false := h
    subst this
    decide
  | cons c cs ih =>
    intro odd h
    rw [Paired] at h
    by_cases h92 : c = 92
    · subst h92
      rw [if_pos rfl] at h
      have e : tokOf (92 :: cs) = 92 :: tokOf cs := by
        unfold tokOf
        rw [List.takeWhile_cons, if_pos (by decide)]
      rw [e]
      have := ih _ h
      cases odd with
      | true =>
        simp only [if_true, List.cons_append, List.nil_append, tb_cons_bs2]
        simpa using this
      | false => simpa using this
    · rw [if_neg h92] at h
      have hne : c.toNat ≠ 92 := fun he => h92 (UInt8.toNat_inj.mp he)
      split at h
      · rename_i hc
        have e : tokOf (c :: cs) = [] := by
          unfold tokOf
          rw [List.takeWhile_cons, if_neg (by simp [(isDelim_iff c).mpr hc])]
        rw [e, h.1]
        decide
      · rename_i hc
        have e : tokOf (c :: cs) = c :: tokOf cs := by
          unfold tokOf
          rw [List.takeWhile_cons, if_pos (by
            have : ¬ isDelim c = true := fun hd => hc ((isDelim_iff c).mp hd)
            simp [this])]
        rw [e]
        have := ih _ h
        simp only [Bool.false_eq_true, if_false, List.nil_append] at this
        cases odd with
        | true => simpa only [if_true, List.cons_append, List.nil_append, tb_cons_bs2] using this
        | false => simpa only [Bool.false_eq_true, if_false, List.nil_append, tb_cons_ne hne] using this

theorem Spec.Paired.tok {s : List UInt8} (h : Paired false s) : trailingBackslashes (tokOf s) % 2 = 0 := by
  simpa using Paired.tokGo s false h

/-! ## Character strings -/

theorem fss_safe (q : Bool) (s u : List UInt8) (n : Nat) :
    ∃ k w, k ≤ s.length ∧ (fssLoop q s u n).2.1 = n + k ∧ (fssLoop q s u n).2.2 = u ++ w ∧
      ((fssLoop q s u n).1 = true → Paired false s → Paired false (s.drop k)) ∧ (NoBrace s → 123 ∉ w) := by
  fun_induction fssLoop q s u n with
  | case1 u n => exact ⟨0, [], by simp, rfl, by simp, fun _ h => h, by simp⟩
  | case2 c cs u n h =>
    refine ⟨1, [], by simp, rfl, by simp, fun _ hp => ?_, by simp⟩
    exact Paired.blank hp (by rw [h.2]; decide)
  | case3 c cs u n h1 h2 => exact ⟨0, [], by simp, rfl, by simp, fun _ h => h, by simp⟩
  | case4 => exact ⟨0, [], by simp, rfl, by simp, by simp, by simp⟩
  | case5 u n d ds hd h1 h2 ih =>
    obtain ⟨k, w, e1, e2, e3, e4, e5⟩ := ih
    refine ⟨k + 2, d :: w, by simp; omega, by rw [e2]; omega, by rw [e3]; simp, fun ht hp => ?_, fun hb => ?_⟩
    · refine e4 ht ?_
      rw [Paired, if_pos rfl, Paired] at hp
      rcases hd with rfl | rfl
      · rw [if_neg (by decide), if_neg (by decide)] at hp
        exact hp
      · rw [if_pos rfl] at hp
        exact hp
    · have hb' : NoBrace ds := NoBrace.suffix hb ⟨[92, d], rfl⟩
      intro hm
      rcases List.mem_cons.mp hm with h | h
      · exact hb.1 (by simp [h])
      · exact e5 hb' h
  | case6 => exact ⟨0, [], by simp, rfl, by simp, by simp, by simp⟩
  | case7 u n d hd hdig e f fs hef v hv h1 h2 ih =>
    obtain ⟨k, w, e1, e2, e3, e4, e5⟩ := ih
    have dig : ∀ c : UInt8, isDigit c = true → c ≠ 92 ∧ ¬ Separator c := by
      intro c hc
      have hc' : 48 ≤ c.toNat ∧ c.toNat ≤ 57 := by simpa [isDigit] using hc
      constructor
      · rintro rfl; revert hc'; decide
      · rintro (rfl | rfl | rfl | rfl) <;> revert hc' <;> decide
    refine ⟨k + 4, UInt8.ofNat v :: w, by simp; omega, by rw [e2]; omega, by rw [e3]; simp, fun ht hp => ?_, fun hb => ?_⟩
    · refine e4 ht ?_
      rw [Paired, if_pos rfl, Paired, if_neg (dig d hdig).1, if_neg (dig d hdig).2, Paired, if_neg (dig e hef.1).1,
        if_neg (dig e hef.1).2, Paired, if_neg (dig f hef.2).1, if_neg (dig f hef.2).2] at hp
      exact hp
    · have hb' : NoBrace fs := NoBrace.suffix hb ⟨[92, d, e, f], rfl⟩
      intro hm
      rcases List.mem_cons.mp hm with h | h
      · refine hb.2 ⟨[], fs, ?_⟩
        have hd' : 48 ≤ d.toNat ∧ d.toNat ≤ 57 := by simpa [isDigit] using hdig
        have he' : 48 ≤ e.toNat ∧ e.toNat ≤ 57 := by simpa [isDigit] using hef.1
        have hf' : 48 ≤ f.toNat ∧ f.toNat ≤ 57 := by simpa [isDigit] using hef.2
        have hv3 : v = 123 := by
          have := congrArg UInt8.toNat h
          rw [UInt8.toNat_ofNat_of_lt' (by show v < 256; omega)] at this
          exact this.symm
        have a1 : d = 49 := UInt8.toNat_inj.mp (by show d.toNat = 49; omega)
        have a2 : e = 50 := UInt8.toNat_inj.mp (by show e.toNat = 50; omega)
        have a3 : f = 51 := UInt8.toNat_inj.mp (by show f.toNat = 51; omega)
        rw [a1, a2, a3]; rfl
      · exact e5 hb' h
  | case8 => exact ⟨0, [], by simp, rfl, by simp, by simp, by simp⟩
  | case9 => exact ⟨0, [], by simp, rfl, by simp, by simp, by simp⟩
  | case10 => exact ⟨0, [], by simp, rfl, by simp, by simp, by simp⟩
  | case11 c cs u n h1 h2 h3 h4 ih =>
    obtain ⟨k, w, e1, e2, e3, e4, e5⟩ := ih
    refine ⟨k + 1, c :: w, by simp; omega, by rw [e2]; omega, by rw [e3]; simp, fun ht hp => e4 ht (Paired.blank hp h3), fun hb => ?_⟩
    intro hm
    rcases List.mem_cons.mp hm with h | h
    · exact hb.1 (by simp [h])
    · exact e5 (NoBrace.tail hb) h
  | case12 => exact ⟨0, [], by simp, rfl, by simp, by simp, by simp⟩

theorem fromStr_safe (s u : List UInt8) : ∃ k w, rdataFromStrString s u = (k, u ++ w) ∧ k ≤ s.length ∧
    (k ≠ 0 → Paired false s → Paired false (s.drop k)) ∧ (NoBrace s → 123 ∉ w) := by
  unfold rdataFromStrString
  have key : ∃ k w, (if s.head? = some 34 then fssLoop true (s.drop 1) u 1 else fssLoop false s u 0).2 = (k, u ++ w) ∧ k ≤ s.length ∧
      ((if s.head? = some 34 then fssLoop true (s.drop 1) u 1 else fssLoop false s u 0).1 = true → Paired false s → Paired false (s.drop k)) ∧
      (NoBrace s → 123 ∉ w) := by
    by_cases h : s.head? = some 34
    · rw [if_pos h]
      obtain ⟨t, rfl⟩ : ∃ t, s = 34 :: t := by
        cases s with
        | nil => simp at h
        | cons c t => simp at h; exact ⟨t, by rw [h]⟩
      simp only [List.drop_succ_cons, List.drop_zero]
      obtain ⟨k, w, e1, e2, e3, e4, e5⟩ := fss_safe true t u 1
      refine ⟨k + 1, w, Prod.ext (by rw [e2]; simp; omega) e3, by simp; omega, fun h1 h2 => ?_, fun hb => e5 (NoBrace.tail hb)⟩
      rw [List.drop_succ_cons]
      exact e4 h1 (Paired.blank h2 (by decide))
    · rw [if_neg h]
      obtain ⟨k, w, e1, e2, e3, e4, e5⟩ := fss_safe false s u 0
      exact ⟨k, w, Prod.ext (by rw [e2]; simp) e3, e1, e4, e5⟩
  obtain ⟨k, w, e1, e2, e3, e4⟩ := key
  simp only
  generalize (if s.head? = some 34 then fssLoop true (s.drop 1) u 1 else fssLoop false s u 0) = r at e1 e3
  by_cases hr : r.1 = true
  · rw [if_pos hr]
    exact ⟨k, w, e1, e2, fun _ => e3 hr, e4⟩
  · rw [if_neg hr]
    refine ⟨0, [], ?_, by simp, by simp, by simp⟩
    rw [e1]
    simp

/-! ## Fields -/

theorem scanfHex2_ne_eof {s : List UInt8} (h : s ≠ []) (hb : NoBlankEnd s) : scanfHex2 s ≠ .eof := by
  have hd : s.dropWhile isSpace ≠ [] := by
    intro he
    have hall : ∀ c ∈ s, isSpace c = true := by
      have : ∀ l : List UInt8, l.dropWhile isSpace = [] → ∀ c ∈ l, isSpace c = true := by
        intro l
        induction l with
        | nil => simp
        | cons x xs ih =>
          intro h c hc
          rw [List.dropWhile_cons] at h
          split at h
          · rename_i hx
            rcases List.mem_cons.mp hc with rfl | hc
            · exact hx
            · exact ih h c hc
          · cases h
      exact this s he
    obtain ⟨c, hc⟩ : ∃ c, s.getLast? = some c := ⟨s.getLast h, List.getLast?_eq_some_getLast h⟩
    exact hb c hc ((isSpace_iff c).mp (hall c (List.mem_of_getLast? hc)))
  unfold scanfHex2
  split
  · contradiction
  · split
    · split <;> simp
    · split
      · simp
      · split <;> simp

theorem sBytes_safe (s u : List UInt8) (hb : NoBlankEnd s) : ∃ r, sBytes s u = ok r := by
  fun_induction sBytes s u with
  | case1 => exact ⟨_, rfl⟩
  | case2 => exact ⟨_, rfl⟩
  | case3 => exact absurd ‹_› (scanfHex2_ne_eof (by simp) hb)
  | case4 => exact ⟨_, rfl⟩
  | case5 u c d s b h ih => exact ih (NoBlankEnd.suffix hb (by simp [List.suffix_cons_iff]))

theorem sGeneric_safe (s u : List UInt8) (n : Nat) : ∃ r, sGeneric s n u = ok r := by
  fun_induction sGeneric s n u with
  | case1 => exact ⟨_, rfl⟩
  | case2 _ _ _ _ _ ih => exact ih
  | case3 => exact ⟨_, rfl⟩
  | case4 n u c hc d s h =>
    exfalso
    unfold scanfHex2 at h
    rw [List.dropWhile_cons, if_neg hc] at h
    revert h
    split
    · rename_i he; cases he
    · rename_i he
      split
      · split <;> simp
      · split
        · simp
        · split <;> simp
  | case5 => exact ⟨_, rfl⟩
  | case6 _ _ _ _ _ _ _ _ ih => exact ih

theorem sSalt_safe (n : Nat) (s u : List UInt8) (hb : NoBlankEnd s) (hn : 2 * n ≤ s.length) :
    ∃ r, sSalt n s u = ok r ∧ ∀ p u', r = .go p u' → p = some (s.drop (2 * n)) := by
  induction n generalizing s u with
  | zero => exact ⟨_, rfl, by rintro p u' h; cases h; rfl⟩
  | succ n ih =>
    rw [sSalt]
    have hne : s ≠ [] := by rintro rfl; simp at hn
    cases h : scanfHex2 s with
    | eof => exact absurd h (scanfHex2_ne_eof hne hb)
    | «nomatch» => exact ⟨_, rfl, by rintro p u' h; cases h⟩
    | val b =>
      obtain ⟨r, h1, h2⟩ := ih (s.drop 2) (u ++ [b]) (NoBlankEnd.suffix hb (List.drop_suffix _ _)) (by simp; omega)
      refine ⟨r, h1, fun p u' hr => ?_⟩
      rw [h2 p u' hr, List.drop_drop]
      congr 2
      omega

theorem tok_ne_nil {s : List UInt8} (h : s ≠ []) (hs : ∀ c, s.head? = some c → isSpace c = false) : tokOf s ≠ [] := by
  cases s with
  | nil => contradiction
  | cons c cs =>
    have := hs c rfl
    unfold tokOf
    rw [List.takeWhile_cons, if_pos]
    · simp
    · have : ¬ Separator c := by
        rintro (rfl | rfl | rfl | rfl) <;> revert this <;> decide
      have : ¬ isDelim c = true := fun h => this ((isDelim_iff c).mp h)
      simp [this]

theorem scanfU_digits {bits : Nat} {s : List UInt8} (h : s ≠ []) (hs : ∀ c, s.head? = some c → isSpace c = false)
    (hd : (tokOf s).all isDigit = true) : ∃ v, scanfU bits s = .val v := by
  have ht := tok_ne_nil h hs
  cases s with
  | nil => contradiction
  | cons c cs =>
    have hc := hs c rfl
    have hdig : isDigit c = true := by
      unfold tokOf at hd ht
      rw [List.takeWhile_cons] at hd ht
      split at ht
      · rename_i hx
        rw [if_pos hx] at hd
        simp only [List.all_cons, Bool.and_eq_true] at hd
        exact hd.1
      · contradiction
    have hn : 48 ≤ c.toNat ∧ c.toNat ≤ 57 := by simpa [isDigit] using hdig
    unfold scanfU
    have e : (c :: cs).dropWhile isSpace = c :: cs := by rw [List.dropWhile_cons, if_neg (by simp [hc])]
    rw [e, if_neg (by simp)]
    unfold scanInt
    rw [e]
    simp only
    rw [if_neg (by rintro rfl; revert hn; decide), if_neg (by rintro rfl; revert hn; decide), scanDigits, if_pos hn]
    have hsome : ∀ (l : List UInt8) (a : Nat), ∃ r, scanDigits a true l = some r := by
      intro l
      induction l with
      | nil => intro a; exact ⟨_, by rw [scanDigits]; rfl⟩
      | cons x xs ih =>
        intro a
        rw [scanDigits]
        split
        · exact ih _
        · exact ⟨_, rfl⟩
    obtain ⟨r, hr⟩ := hsome cs (0 * 10 + (c.toNat - 48))
    rw [hr]
    exact ⟨_, rfl⟩

theorem sRepstring_safe (fuel : Nat) (s u : List UInt8) (hf : s.length < fuel) : ∃ r, sRepstring fuel s u = ok r := by
  induction fuel generalizing s u with
  | zero => omega
  | succ fuel ih =>
    rw [sRepstring.eq_def]
    simp only
    cases s with
    | nil => exact ⟨_, rfl⟩
    | cons c cs =>
      simp only [List.length_cons] at hf
      simp only
      split
      · exact ih cs u (by omega)
      · obtain ⟨k, w, e, hk, -, -⟩ := fromStr_safe (c :: cs) (u ++ [0])
        rw [e]
        simp only
        split
        · exact ⟨_, rfl⟩
        · split
          · exact ⟨_, rfl⟩
          · exact ih _ _ (by rw [List.length_drop, List.length_cons]; omega)

theorem svcValue_safe (key : Nat) (val u : List UInt8) (hb : 123 ∉ val) : ∃ r, svcValue key val u = ok r := by
  unfold svcValue
  simp only
  split
  · exact ⟨_, rfl⟩
  split
  · exact ⟨_, rfl⟩
  split
  · unfold svcEchTok
    split
    · exact ⟨_, rfl⟩
    · rename_i tok htok
      split
      · exact ⟨_, rfl⟩
      · have hsub : ∀ (l cur : List UInt8) (t : List UInt8), t ∈ strtok (· = 32) l cur → ∀ c ∈ t, c ∈ l ∨ c ∈ cur := by
          intro l
          induction l with
          | nil =>
            intro cur t ht c hc
            unfold strtok at ht
            split at ht
            · cases ht
            · rw [List.mem_singleton] at ht
              exact Or.inr (ht ▸ hc)
          | cons x xs ih =>
            intro cur t ht c hc
            unfold strtok at ht
            split at ht
            · split at ht
              · rcases ih [] t ht c hc with h | h
                · exact Or.inl (List.mem_cons_of_mem _ h)
                · cases h
              · rcases List.mem_cons.mp ht with h | h
                · exact Or.inr (h ▸ hc)
                · rcases ih [] t h c hc with h | h
                  · exact Or.inl (List.mem_cons_of_mem _ h)
                  · cases h
            · rcases ih _ t ht c hc with h | h
              · exact Or.inl (List.mem_cons_of_mem _ h)
              · rcases List.mem_append.mp h with h | h
                · exact Or.inr h
                · rw [List.mem_singleton] at h
                  exact Or.inl (by simp [h])
        have hmem := List.mem_of_mem_head? htok
        obtain ⟨r, hr⟩ := C51_decode_safe tok (by
          intro c hc h123
          rcases hsub _ _ tok hmem c hc with h | h
          · exact hb (h123 ▸ (List.takeWhile_sublist _).mem h)
          · cases h)
        rw [hr]
        exact ⟨_, rfl⟩
  split
  · exact ⟨_, rfl⟩
  split
  · exact ⟨_, rfl⟩
  split <;> exact ⟨_, rfl⟩

theorem strToSvcparam_safe {key : Nat} {val : Option (List UInt8)} (u : List UInt8) (hk : key ≠ 65535)
    (hv : val = none → key = 2) (hb : ∀ v, val = some v → 123 ∉ v) : ∃ r, strToSvcparam u key val = ok r := by
  unfold strToSvcparam
  rw [if_neg hk]
  simp only
  split
  · cases val <;> exact ⟨_, rfl⟩
  · rename_i h2
    cases val with
    | none => exact absurd (hv rfl) h2
    | some v =>
      obtain ⟨r, hr⟩ := svcValue_safe key v (u ++ htons key ++ [0, 0]) (hb v rfl)
      simp only
      rw [hr]
      simp only [ok_bind]
      split <;> exact ⟨_, rfl⟩

theorem sSvcparams_safe (fuel : Nat) (s u : List UInt8) (hf : s.length < fuel) (hb : NoBrace s) : ∃ r, sSvcparams fuel s u = ok r := by
  induction fuel generalizing s u with
  | zero => omega
  | succ fuel ih =>
    rw [sSvcparams.eq_def]
    simp only
    cases s with
    | nil => exact ⟨_, rfl⟩
    | cons c cs =>
      simp only [List.length_cons] at hf
      simp only
      split
      · exact ih cs u (by omega) (NoBrace.tail hb)
      · rename_i hc
        generalize hkey : (c :: cs).takeWhile (fun c => decide (c ≠ 61 ∧ c ≠ 32)) = key
        generalize hval : (c :: cs).drop key.length = val
        have hvs : val <:+ c :: cs := hval ▸ List.drop_suffix _ _
        have hvb : NoBrace val := NoBrace.suffix hb hvs
        split
        · exact ⟨_, rfl⟩
        · rename_i hk
          split
          · split
            · exact ⟨_, rfl⟩
            · rename_i hv h2
              simp only [ne_eq, Decidable.not_not] at h2
              obtain ⟨⟨r, u'⟩, hr⟩ := strToSvcparam_safe (val := none) u hk (fun _ => h2) (by simp)
              rw [hr]
              simp only [ok_bind]
              split
              · exact ⟨_, rfl⟩
              · refine ih _ _ ?_ hvb
                have : key ≠ [] := by
                  rintro rfl
                  rw [h2.symm.symm] at hk
                  have : strToSvcparamkey [] = 65535 := by decide
                  omega
                have := List.length_pos_iff.mpr this
                rw [← hval, List.length_drop, List.length_cons]
                omega
          · rename_i hv
            obtain ⟨k, w, e, hkl, -, hw⟩ := fromStr_safe (val.drop 1) u
            rw [e]
            simp only
            split
            · exact ⟨_, rfl⟩
            · rename_i hk0
              rw [List.take_left, List.drop_left]
              obtain ⟨⟨r, u'⟩, hr⟩ := strToSvcparam_safe (val := some w) u hk (by simp)
                (by rintro v hv; cases hv; exact hw (NoBrace.suffix hvb (List.drop_suffix _ _)))
              rw [hr]
              simp only [ok_bind]
              split
              · exact ⟨_, rfl⟩
              · refine ih _ _ ?_ (NoBrace.suffix hvb ((List.drop_suffix _ _).trans (List.drop_suffix _ _)))
                have hvl := hvs.length_le
                have : val ≠ [] := by rintro rfl; exact hv (Or.inl rfl)
                have := List.length_pos_iff.mpr this
                simp only [List.length_drop, List.length_cons] at hvl ⊢
                omega

theorem sTypes_safe (fuel : Nat) (s : List UInt8) (hf : s.length + 1 < fuel) : ∃ r, sTypes fuel (some s) = ok r := by
  induction fuel generalizing s with
  | zero => omega
  | succ fuel ih =>
    rw [sTypes.eq_def]
    cases s with
    | nil => exact ⟨_, rfl⟩
    | cons c cs =>
      simp only [List.length_cons] at hf
      simp only
      split
      · exact ih cs (by omega)
      · rename_i hc
        obtain ⟨t, -, ht, -⟩ := C47_str_to_rrtype_total (tokOf (c :: cs))
        rw [ht]
        simp only [ok_bind]
        split
        · exact ⟨_, rfl⟩
        · have hne := tok_ne_nil (s := c :: cs) (by simp) (by intro x hx; simp at hx; subst hx; simpa using hc)
          have hlen : (tokOf (c :: cs)).length + (afterTok (c :: cs)).length = cs.length + 1 := by
            unfold tokOf afterTok
            rw [← List.length_append, List.takeWhile_append_dropWhile, List.length_cons]
          have := List.length_pos_iff.mpr hne
          have : ∃ r, sTypes fuel (endPtr (c :: cs)) = ok r := by
            unfold endPtr
            split
            · obtain ⟨k, rfl⟩ : ∃ k, fuel = k + 1 := ⟨fuel - 1, by omega⟩
              exact ⟨_, rfl⟩
            · exact ih _ (by omega)
          obtain ⟨r, hr⟩ := this
          rw [hr]
          exact ⟨_, rfl⟩

theorem afterTok_eq (s : List UInt8) : afterTok s = s.drop (tokOf s).length := by
  have : tokOf s ++ afterTok s = s := List.takeWhile_append_dropWhile
  have h2 := List.drop_left (l₁ := tokOf s) (l₂ := afterTok s)
  rw [this] at h2
  exact h2.symm

theorem tok_length (s : List UInt8) : (tokOf s).length ≤ s.length := by
  have : tokOf s ++ afterTok s = s := List.takeWhile_append_dropWhile
  have := congrArg List.length this
  rw [List.length_append] at this
  omega

/-- Where the scanner goes on: a later place of the text, with paired backslashes if the text has them. -/
def Later (s : List UInt8) (p : Option (List UInt8)) : Prop :=
  ∀ s', p = some s' → s' <:+ s ∧ (Paired false s → Paired false s')

theorem later_none (s : List UInt8) : Later s none := by intro s' h; cases h
theorem later_nil (s : List UInt8) : Later s (some []) := by
  intro s' h; cases h; exact ⟨List.nil_suffix, fun _ => rfl⟩
theorem later_self (s : List UInt8) : Later s (some s) := by
  intro s' h; cases h; exact ⟨List.suffix_refl _, id⟩
theorem later_afterTok (s : List UInt8) : Later s (some (afterTok s)) := by
  intro s' h; cases h; exact ⟨List.dropWhile_suffix _, Paired.afterTok⟩
theorem later_endPtr (s : List UInt8) : Later s (endPtr s) := by
  unfold endPtr
  split
  · exact later_none _
  · exact later_afterTok _
theorem later_trans {s t : List UInt8} {p : Option (List UInt8)} (h1 : Later s (some t)) (h2 : Later t p) : Later s p := by
  intro s' h
  obtain ⟨a, b⟩ := h1 t rfl
  obtain ⟨c, d⟩ := h2 s' h
  exact ⟨c.trans a, fun hp => d (b hp)⟩
theorem later_blank (s : List UInt8) : Later s (some (s.dropWhile isSpace)) := by
  intro s' h; cases h; exact ⟨List.dropWhile_suffix _, Paired.dropBlank⟩

/-- The field is read, and the scanner goes on at a later place. -/
def Reads (s : List UInt8) (o : Outcome FRes) : Prop := ∃ r, o = ok r ∧ ∀ p u, r = .go p u → Later s p

theorem reads_go {s : List UInt8} {p : Option (List UInt8)} {u : List UInt8} (h : Later s p) : Reads s (ok (.go p u)) :=
  ⟨_, rfl, by rintro p u h'; cases h'; exact h⟩
theorem reads_bad {s : List UInt8} {e : Res} {u : List UInt8} : Reads s (ok (.bad e u)) := ⟨_, rfl, by rintro p u h; cases h⟩

theorem sInt_safe {n : Nat} {s u : List UInt8} (h : s ≠ []) (hs : ∀ c, s.head? = some c → isSpace c = false) : Reads s (sInt n s u) := by
  unfold sInt
  split
  · rename_i hd
    obtain ⟨v, hv⟩ := scanfU_digits (bits := 64) h hs hd
    rw [hv]
    simp only
    split
    · exact reads_bad
    · exact reads_go (later_afterTok s)
  · exact reads_bad

theorem sPrefix_safe {s u : List UInt8} (h : s ≠ []) (hs : ∀ c, s.head? = some c → isSpace c = false) : Reads s (sPrefix s u) := by
  unfold sPrefix
  split
  · rename_i hd
    obtain ⟨v, hv⟩ := scanfU_digits (bits := 8) h hs hd
    rw [hv]
    simp only
    split
    · exact reads_bad
    · have hl := later_trans (later_afterTok s) (later_blank (afterTok s))
      generalize (afterTok s).dropWhile isSpace = t at hl
      unfold sPrefixAddr
      simp only
      split
      · exact reads_bad
      · split
        · split
          · split
            · exact reads_bad
            · exact reads_go (later_none s)
          · exact reads_go (later_trans hl (later_endPtr t))
        · split
          · exact reads_bad
          · exact reads_go hl
  · exact reads_bad

theorem sField_safe {t : Rdf} {ts : List Rdf} {s u : List UInt8} (h : s ≠ []) (hs : ∀ c, s.head? = some c → isSpace c = false)
    (h0 : 0 ∉ s) (hok : ScanOK (t :: ts) s) (hg : GoodTypes (t :: ts)) :
    ∃ r, sField t s u = ok r ∧ (ts ≠ [] → ∀ p u', r = .go p u' → Later s p) := by
  have of : ∀ {o : Outcome FRes}, Reads s o → ∃ r, o = ok r ∧ (ts ≠ [] → ∀ p u', r = .go p u' → Later s p) := by
    rintro o ⟨r, h1, h2⟩
    exact ⟨r, h1, fun _ => h2⟩
  have last : ∀ {o : Outcome FRes}, Terminal t → (∃ r, o = ok r) → ∃ r, o = ok r ∧ (ts ≠ [] → ∀ p u', r = .go p u' → Later s p) := by
    rintro o hT ⟨r, h1⟩
    exact ⟨r, h1, fun hn => absurd (hg.1 (Or.inl hT)) hn⟩
  have ht0 : ∀ c ∈ tokOf s, c ≠ 0 := fun c hc h => h0 (h ▸ (List.takeWhile_sublist _).mem hc)
  have name : IsName t → Reads s (match strToNameCase (tokOf s) with
      | ok n => ok (.go (endPtr s) (u ++ n.data))
      | err r => ok (.bad r u)
      | ub => ub
      | hang => hang
      | abort => abort) := by
    intro hn
    have hp := hok.1 ⟨t, by simp, hn⟩
    have := (C18_scan_safe_partial (tokOf s) ht0 (Paired.tok hp)).2
    cases e : strToNameCase (tokOf s) with
    | ok n => exact reads_go (later_endPtr s)
    | err r => exact reads_bad
    | ub => rw [e] at this; simp at this
    | hang => rw [e] at this; simp at this
    | abort => rw [e] at this; simp at this
  have eui : ∀ n, Reads s (sEui n s u) := by
    intro n
    unfold sEui
    split
    · exact reads_bad
    · split
      · exact reads_bad
      · exact reads_go (later_nil s)
  unfold sField
  cases t with
  | name => exact of (name trivial)
  | uname => exact of (name trivial)
  | bytes => exact last trivial (sBytes_safe s u (hok.2.2 (by simp)))
  | bytesB64 =>
    refine last trivial ?_
    obtain ⟨b, hb⟩ := C51_decode_safe s (fun c hc h => (hok.2.1 (by simp)).1 (h ▸ hc))
    simp only
    rw [hb]
    exact ⟨_, rfl⟩
  | bytesStr =>
    refine last trivial ?_
    simp only
    split
    · split <;> exact ⟨_, rfl⟩
    · exact ⟨_, rfl⟩
  | ipv6prefix => exact of (sPrefix_safe h hs)
  | salt =>
    refine of ?_
    simp only
    split
    · rename_i he
      have := later_afterTok s
      rw [afterTok_eq, he] at this
      exact reads_go this
    · split
      · exact reads_bad
      · rename_i hl
        obtain ⟨r, h1, h2⟩ := sSalt_safe ((tokOf s).length / 2) s (u ++ [UInt8.ofNat ((tokOf s).length / 2)])
          (hok.2.2 (by simp)) (by have := tok_length s; omega)
        refine ⟨r, h1, fun p u' hr => ?_⟩
        rw [h2 p u' hr]
        have := later_afterTok s
        rw [afterTok_eq] at this
        rwa [show 2 * ((tokOf s).length / 2) = (tokOf s).length by omega]
  | hash =>
    refine of ?_
    simp only
    split
    · rename_i he
      have := later_afterTok s
      rw [afterTok_eq, he] at this
      exact reads_go this
    · split
      · exact reads_bad
      · split
        · exact reads_bad
        · exact reads_go (later_afterTok s)
  | int8 => exact of (sInt_safe h hs)
  | int16 => exact of (sInt_safe h hs)
  | int32 => exact of (sInt_safe h hs)
  | ipv4 =>
    refine of ?_
    simp only
    split
    · exact reads_bad
    · exact reads_go (later_afterTok s)
  | ipv6 =>
    refine of ?_
    simp only
    split
    · exact reads_bad
    · exact reads_go (later_endPtr s)
  | eui48 => exact of (eui 6)
  | eui64 => exact of (eui 8)
  | string =>
    refine of ?_
    simp only
    split
    · exact reads_bad
    · rename_i hr
      unfold strToUbuf at hr ⊢
      obtain ⟨k, w, e, hk, hp, -⟩ := fromStr_safe s (u ++ [0])
      rw [e] at hr ⊢
      simp only at hr ⊢
      by_cases h0 : k = 0
      · rw [if_pos h0] at hr; simp at hr
      · rw [if_neg h0] at hr ⊢
        split at hr
        · simp at hr
        · rename_i hl
          rw [if_neg hl]
          refine reads_go ?_
          intro s' hs'
          cases hs'
          exact ⟨List.drop_suffix _ _, hp h0⟩
  | repstring => exact last trivial (sRepstring_safe _ s u (by omega))
  | rrtype =>
    refine of ?_
    obtain ⟨t, -, ht, -⟩ := C47_str_to_rrtype_total (tokOf s)
    simp only
    rw [ht]
    simp only [ok_bind]
    split
    · exact reads_bad
    · exact reads_go (later_endPtr s)
  | svcparams => exact last trivial (sSvcparams_safe _ s u (by omega) (hok.2.1 (by simp)))
  | typeBitmap =>
    refine last trivial ?_
    obtain ⟨r, hr⟩ := sTypes_safe (s.length + 2) s (by omega)
    simp only
    unfold sBitmap
    rw [hr]
    simp only [ok_bind]
    split <;> exact ⟨_, rfl⟩
  | ednsOptRdata => exact ⟨_, rfl, by rintro - p u' h; cases h⟩

theorem sFields_safe (ts : List Rdf) (p : Option (List UInt8)) (u : List UInt8) (hg : GoodTypes ts) (hp : ∀ s, p = some s → 0 ∉ s ∧ ScanOK ts s) :
    ∃ r, sFields ts p u = ok r := by
  induction ts generalizing p u with
  | nil => exact ⟨_, by rw [sFields]⟩
  | cons t ts ih =>
    cases p with
    | none => exact ⟨_, by rw [sFields]⟩
    | some s =>
      obtain ⟨h0, hok⟩ := hp s rfl
      rw [sFields]
      split
      · exact ⟨_, rfl⟩
      · rename_i hne
        have hsuf : s.dropWhile isSpace <:+ s := List.dropWhile_suffix _
        have hok' : ScanOK (t :: ts) (s.dropWhile isSpace) :=
          ⟨fun h => Paired.dropBlank (hok.1 h), fun h => NoBrace.suffix (hok.2.1 h) hsuf, fun h => NoBlankEnd.suffix (hok.2.2 h) hsuf⟩
        have hhead : ∀ c, (s.dropWhile isSpace).head? = some c → isSpace c = false := by
          intro c hc
          have := List.head?_dropWhile_not isSpace s
          rw [hc] at this
          simpa using this
        obtain ⟨r, hr, hl⟩ := sField_safe (u := u) hne hhead (fun h => h0 (hsuf.mem h)) hok' hg
        rw [hr]
        simp only [ok_bind]
        cases r with
        | bad e u' => exact ⟨_, rfl⟩
        | go p' u' =>
          by_cases hts : ts = []
          · subst hts
            exact ⟨.go p' u', by cases p' <;> rfl⟩
          · refine ih p' u' hg.2.2 ?_
            rintro s' rfl
            obtain ⟨hsuf', hpair⟩ := hl hts _ _ rfl s' rfl
            refine ⟨fun h => h0 (hsuf.mem (hsuf'.mem h)), fun h => hpair ?_, fun h => ?_, fun h => ?_⟩
            · obtain ⟨t', ht', hn'⟩ := h
              exact hok'.1 ⟨t', List.mem_cons_of_mem _ ht', hn'⟩
            · exact NoBrace.suffix (hok'.2.1 (h.imp (List.mem_cons_of_mem _) (List.mem_cons_of_mem _))) hsuf'
            · exact NoBlankEnd.suffix (hok'.2.2 (h.imp (List.mem_cons_of_mem _) (List.mem_cons_of_mem _))) hsuf'

end Wdns
