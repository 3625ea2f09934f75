import Verif.Lemmas.Tables

/-!
# Properties C47 - C50, C66: name tables
-/

namespace Wdns
open Outcome Spec

/-! ## C47 -/

theorem rrtype_table : ∀ e ∈ rrtypeCases, search rrtypes e.2 = ok (some e.1) ∧ e.1 ≤ 65535 := by decide +kernel
theorem rrtype_entries : ∀ e ∈ rrtypes, rrtypeToStr e.1 = some e.2 ∧ e.1 ≤ 65535 ∧ (e.2.map lower).take 4 ≠ ascii "type" := by decide +kernel

/-- **C47.** Every named type is found again from its name, whatever the letter case. -/
theorem C47_named_type (t : Nat) (name s : List UInt8) (h : rrtypeToStr t = some name) (hs : s.map lower = name.map lower) :
    strToRrtype s = ok t := by
  unfold strToRrtype
  rw [← search_map, hs, search_map, (rrtype_table _ (switchOf_mem h)).1]
  rfl

/-- **C47.** `TYPE<n>`, in any letter case, is `n`, for every `n` from 0 to 65535. -/
theorem C47_generic_type (n : Nat) (hn : n ≤ 65535) (p d : List UInt8) (hp : p.map lower = ascii "type") (hd : IsDecimal d n) :
    strToRrtype (p ++ d) = ok n := by
  unfold strToRrtype
  have hnone : search rrtypes (p ++ d) = ok none := by
    rcases search_total rrtypes (p ++ d) with ⟨e, he, -, h2⟩ | h
    · have := (rrtype_entries e he).2.2
      rw [← h2, List.map_append, hp] at this
      exact absurd rfl this
    · exact h
  rw [hnone, convertGeneric_dec (n := n) (by rw [hp]; decide) hd hn]
  rfl

/-- A case of `C47_generic_type`. -/
example : strToRrtype (ascii "tYpE" ++ ascii "65280") = ok 65280 := by decide +kernel

/-- **C47.** Type names are pairwise distinct, even ignoring letter case. -/
theorem C47_distinct (t u : Nat) (a b : List UInt8) (ht : rrtypeToStr t = some a) (hu : rrtypeToStr u = some b)
    (h : a.map lower = b.map lower) : t = u := by
  have h1 := C47_named_type t a a ht rfl
  have h2 := C47_named_type u b a hu h
  rw [h1] at h2
  exact Outcome.ok.inj h2

/-- **C47.** On every string at all: the result is the type with this name (in some letter case), or the number of
a generic name, or 0. -/
theorem C47_str_to_rrtype_total (s : List UInt8) : ∃ t ≤ 65535, strToRrtype s = ok t ∧
    ((∃ name, rrtypeToStr t = some name ∧ s.map lower = name.map lower) ∨ (s.map lower).take 4 = ascii "type" ∨ t = 0) := by
  unfold strToRrtype
  rcases search_total rrtypes s with ⟨e, he, h1, h2⟩ | h
  · obtain ⟨a, b, -⟩ := rrtype_entries e he
    refine ⟨e.1, b, by rw [h1]; rfl, Or.inl ⟨e.2, a, h2⟩⟩
  · rw [h]
    simp only [ok_bind]
    cases hc : convertGeneric (ascii "TYPE") s with
    | none => exact ⟨0, by omega, rfl, Or.inr (Or.inr rfl)⟩
    | some v =>
      refine ⟨v, convertGeneric_le hc, rfl, Or.inr (Or.inl ?_)⟩
      unfold convertGeneric at hc
      split at hc
      · simp at hc
      · split at hc
        · simp at hc
        · rename_i _ h2
          have := (casecmp_eq _ _).mp (Decidable.not_not.mp h2)
          rw [List.map_take] at this
          exact this

example : rrtypeToStr 23 = some (ascii "NSAP-PTR") ∧ strToRrtype (ascii "nsap-Ptr") = ok 23 := by decide +kernel
example : strToRrtype (ascii "TyPe65280") = ok 65280 ∧ strToRrtype (ascii "type65536") = ok 0 ∧ rrtypeToStr 65280 = none := by decide +kernel

/-! ## C48 -/

theorem rrclass_table : ∀ e ∈ rrclassCases, search rrclasses e.2 = ok (some e.1) ∧ e.1 ≤ 65535 := by decide +kernel
theorem rrclass_entries : ∀ e ∈ rrclasses, rrclassToStr e.1 = some e.2 ∧ e.1 ≤ 65535 ∧ (e.2.map lower).take 5 ≠ ascii "class" := by
  decide +kernel

/-- **C48.** Every named class is found again from its name, whatever the letter case. -/
theorem C48_named_class (c : Nat) (name s : List UInt8) (h : rrclassToStr c = some name) (hs : s.map lower = name.map lower) :
    strToRrclass s = ok c := by
  unfold strToRrclass
  rw [← search_map, hs, search_map, (rrclass_table _ (switchOf_mem h)).1]
  rfl

/-- **C48.** `CLASS<n>`, in any letter case, is `n`, for every `n` from 0 to 65535. -/
theorem C48_generic_class (n : Nat) (hn : n ≤ 65535) (p d : List UInt8) (hp : p.map lower = ascii "class") (hd : IsDecimal d n) :
    strToRrclass (p ++ d) = ok n := by
  unfold strToRrclass
  have hnone : search rrclasses (p ++ d) = ok none := by
    rcases search_total rrclasses (p ++ d) with ⟨e, he, -, h2⟩ | h
    · have := (rrclass_entries e he).2.2
      rw [← h2, List.map_append, hp] at this
      exact absurd rfl this
    · exact h
  rw [hnone, convertGeneric_dec (n := n) (by rw [hp]; decide) hd hn]
  rfl

/-- **C48.** Class names are pairwise distinct, even ignoring letter case. -/
theorem C48_distinct (t u : Nat) (a b : List UInt8) (ht : rrclassToStr t = some a) (hu : rrclassToStr u = some b)
    (h : a.map lower = b.map lower) : t = u := by
  have h1 := C48_named_class t a a ht rfl
  have h2 := C48_named_class u b a hu h
  rw [h1] at h2
  exact Outcome.ok.inj h2

example : rrclassToStr 254 = some (ascii "NONE") ∧ strToRrclass (ascii "none") = ok 254 ∧ strToRrclass (ascii "CLASS7") = ok 7 := by
  decide +kernel

/-! ## C49 -/

theorem rcode_table : ∀ e ∈ rcodeCases, search rcodes e.2 = ok (some e.1) := by decide +kernel
theorem rcode_entries : ∀ e ∈ rcodes, rcodeToStr e.1 = some e.2 := by decide +kernel

/-- **C49.** The scan succeeds with `c` exactly on the strings that are, up to letter case, the name of `c`, … -/
theorem C49_rcode_iff (s : List UInt8) (c : Nat) :
    strToRcode s = ok c ↔ ∃ name, rcodeToStr c = some name ∧ s.map lower = name.map lower := by
  constructor
  · intro h
    unfold strToRcode at h
    rcases search_total rcodes s with ⟨e, he, h1, h2⟩ | h1
    · rw [h1] at h
      simp only [ok_bind, Outcome.ok.injEq] at h
      subst h
      exact ⟨e.2, rcode_entries e he, h2⟩
    · rw [h1] at h
      simp at h
  · rintro ⟨name, h, hs⟩
    unfold strToRcode
    rw [← search_map, hs, search_map, rcode_table _ (switchOf_mem h)]
    rfl

/-- … and fails with `wdns_res_failure` on all other strings. -/
theorem C49_rcode_failure (s : List UInt8) (h : ∀ c name, rcodeToStr c = some name → s.map lower ≠ name.map lower) :
    strToRcode s = err .failure := by
  unfold strToRcode
  rcases search_total rcodes s with ⟨e, he, h1, h2⟩ | h1
  · exact absurd h2 (h e.1 e.2 (rcode_entries e he))
  · rw [h1]; rfl

example : strToRcode (ascii "nxDomain") = ok 3 ∧ rcodeToStr 3 = some (ascii "NXDOMAIN") ∧ strToRcode (ascii "BADSIG") = err .failure := by
  decide +kernel

/-! ## C50 -/

/-- **C50.** For every key below the reserved 65535, scanning the printed name gives the key back. -/
theorem C50_svcparamkey (k : Nat) (hk : k < 65535) : strToSvcparamkey (svcparamkeyToStr k) = k := by
  by_cases h7 : k < 7
  · have : ∀ k < 7, strToSvcparamkey (svcparamkeyToStr k) = k := by decide +kernel
    exact this k h7
  · have hc : switchOf svcKeyNames k = none := by
      unfold switchOf
      rw [Option.map_eq_none_iff, List.find?_eq_none]
      have : ∀ e ∈ svcKeyNames, e.1 < 7 := by decide
      intro e he
      have := this e he
      simp; omega
    have hne : k ≠ 65535 := by omega
    have hdec := decText_isDecimal k
    unfold svcparamkeyToStr
    rw [hc]
    simp only [hne, if_false, fmtU_eq]
    have hf : svcKeyNames.find? (fun e => e.2 = ascii "key" ++ decText k) = none := by
      rw [List.find?_eq_none]
      have : ∀ e ∈ svcKeyNames, e.2.take 3 ≠ ascii "key" := by decide
      intro e he
      simp only [decide_eq_true_eq]
      intro h
      apply this e he
      rw [h]; rfl
    have hl : (decText k).length ≠ 0 := by simpa using hdec.1
    have h3 : (ascii "key" ++ decText k).take 3 = ascii "key" := rfl
    have h3' : (ascii "key" ++ decText k).drop 3 = decText k := rfl
    have h4 : (ascii "key" ++ decText k).length > 3 := by simp [ascii]; omega
    unfold strToSvcparamkey
    rw [hf]
    simp only [h3, h4, and_self, if_true, h3', strtoul_dec hdec (show k < 2 ^ 64 by omega)]
    rw [if_neg (by simp; omega)]

/-- **C50.** The printed name always fits the 16-byte buffer of the callers. -/
theorem C50_svcparamkey_fits (k : Nat) (hk : k ≤ 65535) : (svcparamkeyToStr k).length + 1 ≤ 16 := by
  unfold svcparamkeyToStr
  cases h : switchOf svcKeyNames k with
  | some s =>
    have : ∀ e ∈ svcKeyNames, e.2.length + 1 ≤ 16 := by decide
    exact this _ (switchOf_mem h)
  | none =>
    simp only
    split
    · decide
    · rw [fmtU_eq]
      have := decText_length (n := k) (k := 5) (by omega) (by omega)
      simp [ascii]; omega

example : svcparamkeyToStr 5 = ascii "ech" ∧ svcparamkeyToStr 65280 = ascii "key65280" ∧ svcparamkeyToStr 65535 = ascii "invalid key" := by
  decide +kernel
example : strToSvcparamkey (ascii "key65535") = 65535 ∧ strToSvcparamkey (ascii "ALPN") = 65535 ∧ strToSvcparamkey (ascii "key1") = 1 := by
  decide +kernel

/-! ## C66 -/

/-- **C66.** Result codes have distinct, non-empty texts. -/
theorem C66_res_distinct (a b : Res) (h : resToStr a = resToStr b) : a = b := by
  revert h
  cases a <;> cases b <;> decide

/-- **C66.** `wdns_opcode_to_str` is non-`NULL` exactly on the five opcodes, and distinct on them. -/
theorem C66_opcode (o : Nat) : (∃ s, opcodeToStr o = some s) ↔ o = 0 ∨ o = 1 ∨ o = 2 ∨ o = 4 ∨ o = 5 := by
  constructor
  · rintro ⟨s, h⟩
    have := switchOf_mem h
    simp only [List.mem_cons, Prod.mk.injEq, List.not_mem_nil, or_false] at this
    omega
  · rintro (rfl | rfl | rfl | rfl | rfl)
    exacts [⟨_, rfl⟩, ⟨_, rfl⟩, ⟨_, rfl⟩, ⟨_, rfl⟩, ⟨_, rfl⟩]

theorem C66_opcode_distinct (a b : Nat) (s : List UInt8) (ha : opcodeToStr a = some s) (hb : opcodeToStr b = some s) : a = b := by
  rcases (C66_opcode a).mp ⟨s, ha⟩ with rfl | rfl | rfl | rfl | rfl <;>
  rcases (C66_opcode b).mp ⟨s, hb⟩ with rfl | rfl | rfl | rfl | rfl <;>
  first
  | rfl
  | (rw [← hb] at ha; exact absurd ha (by decide))

example : resToStr .qdcount = ascii "qdcount" ∧ opcodeToStr 4 = some (ascii "NOTIFY") ∧ opcodeToStr 3 = none := by decide

end Wdns
