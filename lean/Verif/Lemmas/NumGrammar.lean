import Verif.Spec.NumGrammar
import Verif.Lemmas.ScanSafe
import Verif.Props.Tables

namespace Wdns
open Outcome Spec

theorem scanDigits_iff (s : List UInt8) : ∀ (acc : Nat) (seen : Bool) (v : Nat), scanDigits acc seen s = some (v, []) ↔
    (∀ c ∈ s, IsDigit c) ∧ (s ≠ [] ∨ seen = true) ∧ v = s.foldl (fun v b => 10 * v + digitVal b) acc := by
  induction s with
  | nil =>
    intro acc seen v
    unfold scanDigits
    cases seen <;> simp [eq_comm]
  | cons c s ih =>
    intro acc seen v
    rw [scanDigits]
    by_cases h : 48 ≤ c.toNat ∧ c.toNat ≤ 57
    · rw [if_pos h, ih]
      have hd : IsDigit c := h
      have he : acc * 10 + (c.toNat - 48) = 10 * acc + digitVal c := by unfold digitVal; omega
      simp only [or_true, List.mem_cons, forall_eq_or_imp, hd, true_and, List.foldl_cons, he, ne_eq, reduceCtorEq, not_false_eq_true, true_or]
    · rw [if_neg h]
      have hn : ¬ ∀ x ∈ c :: s, IsDigit x := fun hh => h (hh c (by simp))
      constructor
      · intro he; split at he <;> simp at he
      · intro he; exact absurd he.1 hn

theorem scanDigits_iff' (s : List UInt8) (v : Nat) : scanDigits 0 false s = some (v, []) ↔ s ≠ [] ∧ (∀ c ∈ s, IsDigit c) ∧ decVal s = v := by
  rw [scanDigits_iff]
  unfold decVal
  constructor
  · rintro ⟨h1, h2, h3⟩
    exact ⟨by simpa using h2, h1, h3.symm⟩
  · rintro ⟨h1, h2, h3⟩
    exact ⟨h2, Or.inl h1, h3.symm⟩

/-- White space at the start of a text. -/
theorem blank_split (s : List UInt8) : ∃ b t, s = b ++ t ∧ (∀ c ∈ b, IsBlank c) ∧ s.dropWhile isSpace = t ∧ (∀ c, t.head? = some c → ¬ IsBlank c) := by
  induction s with
  | nil => exact ⟨[], [], rfl, by simp, rfl, by simp⟩
  | cons c s ih =>
    by_cases h : isSpace c = true
    · obtain ⟨b, t, rfl, h1, h2, h3⟩ := ih
      refine ⟨c :: b, t, rfl, ?_, ?_, h3⟩
      · simpa using ⟨(isSpace_iff c).mp h, h1⟩
      · rw [List.dropWhile_cons, if_pos h, h2]
    · refine ⟨[], c :: s, rfl, by simp, ?_, ?_⟩
      · rw [List.dropWhile_cons, if_neg h]
      · simpa using fun hb => h ((isSpace_iff c).mpr hb)

theorem dropSpace_blanks (b : List UInt8) {t : List UInt8} (hb : ∀ c ∈ b, IsBlank c) (ht : ∀ c, t.head? = some c → ¬ IsBlank c) :
    (b ++ t).dropWhile isSpace = t := by
  induction b with
  | nil =>
    cases t with
    | nil => rfl
    | cons c t =>
      have : isSpace c = false := by
        cases h : isSpace c with
        | false => rfl
        | true => exact absurd ((isSpace_iff c).mp h) (ht c rfl)
      simp [this]
  | cons c b ih =>
    rw [List.cons_append, List.dropWhile_cons, if_pos ((isSpace_iff c).mpr (hb c (by simp))), ih fun x hx => hb x (by simp [hx])]

theorem digit_not_blank {c : UInt8} (h : IsDigit c) : ¬ IsBlank c ∧ c ≠ 45 ∧ c ≠ 43 := by
  unfold IsDigit at h
  refine ⟨?_, ?_, ?_⟩
  · unfold IsBlank; omega
  · rintro rfl; revert h; decide
  · rintro rfl; revert h; decide

theorem scanInt_iff (s : List UInt8) (neg : Bool) (m : Nat) : scanInt s = some (neg, m, []) ↔ NumReads s neg m := by
  constructor
  · intro h
    obtain ⟨b, t, rfl, h1, h2, h3⟩ := blank_split s
    unfold scanInt at h
    rw [h2] at h
    cases t with
    | nil => cases h
    | cons c cs =>
      simp only at h
      have key : ∀ (x : List UInt8) (n : Bool), (scanDigits 0 false x).map (fun r => (n, r.1, r.2)) = some (neg, m, []) →
          n = neg ∧ x ≠ [] ∧ (∀ c ∈ x, IsDigit c) ∧ decVal x = m := by
        intro x n hx
        rw [Option.map_eq_some_iff] at hx
        obtain ⟨⟨v, r⟩, hx, he⟩ := hx
        simp only [Prod.mk.injEq] at he
        obtain ⟨e1, rfl, rfl⟩ := he
        exact ⟨e1, (scanDigits_iff' x v).mp hx⟩
      split at h
      · rename_i hc
        obtain ⟨e1, e2, e3, e4⟩ := key _ _ h
        exact ⟨b, [45], cs, by simp [hc], h1, e2, e3, e4, Or.inr ⟨e1.symm, rfl⟩⟩
      · split at h
        · rename_i hc
          obtain ⟨e1, e2, e3, e4⟩ := key _ _ h
          exact ⟨b, [43], cs, by simp [hc], h1, e2, e3, e4, Or.inl ⟨e1.symm, Or.inr rfl⟩⟩
        · obtain ⟨e1, e2, e3, e4⟩ := key _ _ h
          exact ⟨b, [], c :: cs, by simp, h1, e2, e3, e4, Or.inl ⟨e1.symm, Or.inl rfl⟩⟩
  · rintro ⟨b, sg, ds, rfl, h1, h2, h3, h4, h5⟩
    have hs := (scanDigits_iff' ds m).mpr ⟨h2, h3, h4⟩
    obtain ⟨d, ds', rfl⟩ := List.exists_cons_of_ne_nil h2
    have hd := digit_not_blank (h3 d (by simp))
    unfold scanInt
    have hdrop : (b ++ sg ++ (d :: ds')).dropWhile isSpace = sg ++ d :: ds' := by
      rw [List.append_assoc]
      refine dropSpace_blanks b h1 ?_
      rcases h5 with ⟨-, rfl | rfl⟩ | ⟨-, rfl⟩
      · simpa using hd.1
      · simp; decide
      · simp; decide
    rw [hdrop]
    rcases h5 with ⟨rfl, rfl | rfl⟩ | ⟨rfl, rfl⟩
    · simp only [List.nil_append]
      rw [if_neg hd.2.1, if_neg hd.2.2, hs]; rfl
    · simp only [List.cons_append, List.nil_append]
      rw [if_neg (by decide), if_pos trivial, hs]; rfl
    · simp only [List.cons_append, List.nil_append]
      rw [if_pos trivial, hs]; rfl

theorem numReads_ne_nil {d : List UInt8} {neg : Bool} {m : Nat} (h : NumReads d neg m) : d ≠ [] := by
  obtain ⟨b, sg, ds, rfl, -, h2, -⟩ := h
  simp [h2]

theorem convertGeneric_iff (pre s : List UInt8) (t : Nat) : convertGeneric pre s = some t ↔
    t ≤ 65535 ∧ ∃ p d neg, s = p ++ d ∧ p.map lower = pre.map lower ∧ NumReads d neg t ∧ (neg = true → t = 0) := by
  constructor
  · intro h
    unfold convertGeneric at h
    split at h
    · cases h
    split at h
    · cases h
    rename_i hl hc
    simp only at h
    split at h
    · cases h
    split at h
    · cases h
    rename_i hr hv
    have hr' : (strtol (s.drop pre.length)).2 = [] := by simpa using hr
    simp only [Option.some.injEq] at h
    have hc' : (s.take pre.length).map lower = pre.map lower := (casecmp_eq _ _).mp (by simpa using hc)
    unfold strtol at hr' hv h
    cases hi : scanInt (s.drop pre.length) with
    | none =>
      rw [hi] at hr'
      simp at hr'
      omega
    | some x =>
      obtain ⟨neg, m, rest⟩ := x
      rw [hi] at hr' hv h
      simp only at hr' hv h
      subst hr'
      have hn := (scanInt_iff _ neg m).mp hi
      have hm : t = m ∧ (neg = true → t = 0) ∧ t ≤ 65535 := by
        cases neg with
        | false => simp only [Bool.false_eq_true, if_false] at hv h ⊢; simp; omega
        | true => simp only [if_true] at hv h ⊢; simp; omega
      refine ⟨hm.2.2, s.take pre.length, s.drop pre.length, neg, by simp, hc', ?_, hm.2.1⟩
      rw [hm.1]; exact hn
  · rintro ⟨ht, p, d, neg, rfl, hp, hn, hz⟩
    have hl : p.length = pre.length := by simpa using congrArg List.length hp
    have hd : d.length ≠ 0 := by simpa using numReads_ne_nil hn
    unfold convertGeneric
    rw [if_neg (by simp; omega), if_neg (by rw [← hl, List.take_left]; simp [casecmp_eq, hp]), ← hl, List.drop_left]
    have hi := (scanInt_iff _ neg t).mpr hn
    unfold strtol
    rw [hi]
    simp only [ne_eq, not_true_eq_false, if_false]
    cases neg with
    | false =>
      simp only [Bool.false_eq_true, if_false]
      rw [if_neg (by omega)]
      congr 1
      omega
    | true =>
      have := hz rfl
      subst this
      simp

theorem strToRrtype_iff (s : List UInt8) (t : Nat) : strToRrtype s = ok t ↔ TypeReads s t ∨ (t = 0 ∧ ∀ u, ¬ TypeReads s u) := by
  have hnone : search rrtypes s = ok none → ∀ u m, rrtypeToStr u = some m → s.map lower ≠ m.map lower := by
    intro hs u m hm he
    have := C47_named_type u m s hm he
    unfold strToRrtype at this
    have hn := (rrtype_table _ (switchOf_mem hm)).1
    rw [← search_map, he, search_map, hn] at hs
    cases hs
  have hfwd : ∀ u, TypeReads s u → strToRrtype s = ok u := by
    intro u hu
    rcases hu with ⟨m, h1, h2⟩ | ⟨h1, h2, h3⟩
    · exact C47_named_type u m s h1 h2
    · unfold strToRrtype
      rcases search_total rrtypes s with ⟨e, he, -, h5⟩ | h
      · exact absurd h5 (h1 e.1 e.2 (rrtype_entries e he).1)
      · rw [h]
        simp only [ok_bind]
        rw [(convertGeneric_iff (ascii "TYPE") s u).mpr ⟨h2, h3⟩]
  constructor
  · intro h
    unfold strToRrtype at h
    rcases search_total rrtypes s with ⟨e, he, h4, h5⟩ | hn
    · rw [h4] at h
      simp only [ok_bind, ok.injEq] at h
      exact Or.inl (Or.inl ⟨e.2, by rw [← h]; exact (rrtype_entries e he).1, h5⟩)
    · rw [hn] at h
      simp only [ok_bind] at h
      cases hc : convertGeneric (ascii "TYPE") s with
      | some v =>
        rw [hc] at h
        simp only [ok.injEq] at h
        subst h
        have := (convertGeneric_iff _ _ _).mp hc
        exact Or.inl (Or.inr ⟨hnone hn, this.1, this.2⟩)
      | none =>
        rw [hc] at h
        simp only [ok.injEq] at h
        refine Or.inr ⟨h.symm, fun u hu => ?_⟩
        rcases hu with ⟨m, h1, h2⟩ | ⟨h1, h2, h3⟩
        · exact hnone hn u m h1 h2
        · rw [(convertGeneric_iff (ascii "TYPE") s u).mpr ⟨h2, h3⟩] at hc
          cases hc
  · rintro (h | ⟨rfl, h⟩)
    · exact hfwd t h
    · obtain ⟨v, -, hv, -⟩ := C47_str_to_rrtype_total s
      unfold strToRrtype at hv ⊢
      rcases search_total rrtypes s with ⟨e, he, h4, h5⟩ | hn
      · exact absurd (Or.inl ⟨e.2, (rrtype_entries e he).1, h5⟩) (h e.1)
      · rw [hn]
        simp only [ok_bind]
        cases hc : convertGeneric (ascii "TYPE") s with
        | some v =>
          have := (convertGeneric_iff _ _ _).mp hc
          exact absurd (Or.inr ⟨hnone hn, this.1, this.2⟩) (h v)
        | none => rfl

theorem strToRrclass_iff (s : List UInt8) (t : Nat) : strToRrclass s = ok t ↔ ClassReads s t ∨ (t = 0 ∧ ∀ u, ¬ ClassReads s u) := by
  have hnone : search rrclasses s = ok none → ∀ u m, rrclassToStr u = some m → s.map lower ≠ m.map lower := by
    intro hs u m hm he
    have hn := (rrclass_table _ (switchOf_mem hm)).1
    rw [← search_map, he, search_map, hn] at hs
    cases hs
  have hfwd : ∀ u, ClassReads s u → strToRrclass s = ok u := by
    intro u hu
    rcases hu with ⟨m, h1, h2⟩ | ⟨h1, h2, h3⟩
    · exact C48_named_class u m s h1 h2
    · unfold strToRrclass
      rcases search_total rrclasses s with ⟨e, he, -, h5⟩ | h
      · exact absurd h5 (h1 e.1 e.2 (rrclass_entries e he).1)
      · rw [h]
        simp only [ok_bind]
        rw [(convertGeneric_iff (ascii "CLASS") s u).mpr ⟨h2, h3⟩]
  constructor
  · intro h
    unfold strToRrclass at h
    rcases search_total rrclasses s with ⟨e, he, h4, h5⟩ | hn
    · rw [h4] at h
      simp only [ok_bind, ok.injEq] at h
      exact Or.inl (Or.inl ⟨e.2, by rw [← h]; exact (rrclass_entries e he).1, h5⟩)
    · rw [hn] at h
      simp only [ok_bind] at h
      cases hc : convertGeneric (ascii "CLASS") s with
      | some v =>
        rw [hc] at h
        simp only [ok.injEq] at h
        subst h
        have := (convertGeneric_iff _ _ _).mp hc
        exact Or.inl (Or.inr ⟨hnone hn, this.1, this.2⟩)
      | none =>
        rw [hc] at h
        simp only [ok.injEq] at h
        refine Or.inr ⟨h.symm, fun u hu => ?_⟩
        rcases hu with ⟨m, h1, h2⟩ | ⟨h1, h2, h3⟩
        · exact hnone hn u m h1 h2
        · rw [(convertGeneric_iff (ascii "CLASS") s u).mpr ⟨h2, h3⟩] at hc
          cases hc
  · rintro (h | ⟨rfl, h⟩)
    · exact hfwd t h
    · unfold strToRrclass
      rcases search_total rrclasses s with ⟨e, he, h4, h5⟩ | hn
      · exact absurd (Or.inl ⟨e.2, (rrclass_entries e he).1, h5⟩) (h e.1)
      · rw [hn]
        simp only [ok_bind]
        cases hc : convertGeneric (ascii "CLASS") s with
        | some v =>
          have := (convertGeneric_iff _ _ _).mp hc
          exact absurd (Or.inr ⟨hnone hn, this.1, this.2⟩) (h v)
        | none => rfl

/-! ## Keys -/

theorem strtoul_iff (d : List UInt8) (v : Nat) (hd : d ≠ []) (hv : v < 2 ^ 64 - 1) : strtoul d = (v, []) ↔ UReads d v := by
  unfold strtoul
  constructor
  · intro h
    cases hi : scanInt d with
    | none =>
      rw [hi] at h
      simp only [Prod.mk.injEq] at h
      exact absurd h.2 hd
    | some x =>
      obtain ⟨neg, m, rest⟩ := x
      rw [hi] at h
      simp only [Prod.mk.injEq] at h
      obtain ⟨h1, rfl⟩ := h
      refine ⟨neg, m, (scanInt_iff d neg m).mp hi, ?_⟩
      split at h1
      · omega
      · exact ⟨by omega, h1.symm⟩
  · rintro ⟨neg, m, h1, h2, rfl⟩
    rw [(scanInt_iff d neg m).mpr h1]
    simp only
    rw [if_neg (by omega)]

theorem svcNames_find (s : List UInt8) : (∀ e, svcKeyNames.find? (fun e => e.2 = s) = some e → e.1 < 7 ∧ s = keyText e.1) ∧
    (svcKeyNames.find? (fun e => e.2 = s) = none → ∀ j < 7, s ≠ keyText j) := by
  have hall : ∀ e ∈ svcKeyNames, e.1 < 7 ∧ e.2 = keyText e.1 := by decide +kernel
  have hex : ∀ j < 7, (j, keyText j) ∈ svcKeyNames := by decide +kernel
  constructor
  · intro e he
    have h1 := hall e (List.mem_of_find?_eq_some he)
    have h2 := List.find?_some he
    simp only [decide_eq_true_eq] at h2
    exact ⟨h1.1, by rw [← h2, h1.2]⟩
  · intro hn j hj he
    rw [List.find?_eq_none] at hn
    have := hn _ (hex j hj)
    simp [he] at this

theorem strToSvcparamkey_iff (s : List UInt8) (k : Nat) (hk : k ≠ 65535) : strToSvcparamkey s = k ↔ KeyReads s k := by
  obtain ⟨f1, f2⟩ := svcNames_find s
  have hinj : ∀ i < 7, ∀ j < 7, keyText i = keyText j → i = j := by decide +kernel
  unfold strToSvcparamkey
  cases hf : svcKeyNames.find? (fun e => e.2 = s) with
  | some e =>
    obtain ⟨h1, h2⟩ := f1 e hf
    constructor
    · rintro rfl; exact Or.inl ⟨h1, h2⟩
    · rintro (⟨h3, h4⟩ | ⟨h3, -⟩)
      · exact hinj _ h1 _ h3 (by rw [← h2, ← h4])
      · exact absurd h2 (h3 e.1 h1)
  | none =>
    have hn := f2 hf
    constructor
    · intro h
      by_cases hp : s.take 3 = ascii "key" ∧ s.length > 3
      · simp only [if_pos hp] at h
        split at h
        · exact absurd h.symm hk
        · rename_i hc
          have hc := not_or.mp hc
          have h2 : (strtoul (s.drop 3)).2 = [] := by simpa using hc.1
          refine Or.inr ⟨hn, by omega, s.drop 3, by rw [← hp.1]; simp, ?_⟩
          have hd : s.drop 3 ≠ [] := by simp; omega
          rw [← strtoul_iff _ _ hd (by omega)]
          exact Prod.ext h h2
      · simp only [if_neg hp] at h
        exact absurd h.symm hk
    · rintro (⟨h3, h4⟩ | ⟨-, h3, d, rfl, h5⟩)
      · exact absurd h4 (hn k h3)
      · have hd : d ≠ [] := by
          obtain ⟨neg, m, h6, -⟩ := h5
          exact numReads_ne_nil h6
        have := (strtoul_iff d k hd (by omega)).mpr h5
        have hl : (ascii "key").length = 3 := rfl
        have h1 : (ascii "key" ++ d).take 3 = ascii "key" := by rw [← hl, List.take_left]
        have h2 : (ascii "key" ++ d).drop 3 = d := by rw [← hl, List.drop_left]
        have h3' : d.length ≠ 0 := by simpa using hd
        simp only
        rw [if_pos ⟨h1, by simp [hl]; omega⟩, h2, this]
        simp only
        rw [if_neg (by simp; omega)]

end Wdns
