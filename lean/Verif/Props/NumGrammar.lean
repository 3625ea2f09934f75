import Verif.Lemmas.NumGrammar

/-!
# C47, C48, C50 in full: what each string is read as
-/

namespace Wdns
open Outcome Spec

/-- **C47.** `wdns_str_to_rrtype` gives `t` exactly for the names of `t`, and 0 for every string that names nothing. -/
theorem C47_exact (s : List UInt8) (t : Nat) : strToRrtype s = ok t ↔ TypeReads s t ∨ (t = 0 ∧ ∀ u, ¬ TypeReads s u) :=
  strToRrtype_iff s t

/-- **C48.** `wdns_str_to_rrclass` gives `c` exactly for the names of `c`, and 0 for every string that names nothing. -/
theorem C48_exact (s : List UInt8) (c : Nat) : strToRrclass s = ok c ↔ ClassReads s c ∨ (c = 0 ∧ ∀ u, ¬ ClassReads s u) :=
  strToRrclass_iff s c

/-- **C50.** The key scanner gives `k` (other than the invalid key) exactly for the names of `k`. -/
theorem C50_exact (s : List UInt8) (k : Nat) (hk : k ≠ 65535) : strToSvcparamkey s = k ↔ KeyReads s k :=
  strToSvcparamkey_iff s k hk

/-- No string names two types, two classes or two keys. -/
theorem C47_unique (s : List UInt8) (t u : Nat) (ht : TypeReads s t) (hu : TypeReads s u) : t = u := by
  have h1 := (C47_exact s t).mpr (Or.inl ht)
  have h2 := (C47_exact s u).mpr (Or.inl hu)
  rw [h1] at h2
  exact ok.inj h2

theorem C48_unique (s : List UInt8) (t u : Nat) (ht : ClassReads s t) (hu : ClassReads s u) : t = u := by
  have h1 := (C48_exact s t).mpr (Or.inl ht)
  have h2 := (C48_exact s u).mpr (Or.inl hu)
  rw [h1] at h2
  exact ok.inj h2

/-- Cases of the hypotheses of `C47_unique` and `C48_unique`: texts that read as a type and as a class. -/
example : (∃ t, t = 7 ∧ strToRrtype (ascii "TYPE+007") = ok t) ∧ ∃ c, c = 3 ∧ strToRrclass (ascii "CLASS3") = ok c :=
  ⟨⟨7, rfl, by decide +kernel⟩, ⟨3, rfl, by decide +kernel⟩⟩

theorem C50_unique (s : List UInt8) (k j : Nat) (hk : KeyReads s k) (hj : KeyReads s j) : k = j := by
  have lt : ∀ {k}, KeyReads s k → k ≠ 65535 := by
    rintro k (⟨h, -⟩ | ⟨-, h, -⟩) <;> omega
  rw [← (C50_exact s k (lt hk)).mpr hk, (C50_exact s j (lt hj)).mpr hj]

/-- `TYPE+007` is 7, `type-0` and `nonsense` are 0, `CLASS65536` is 0, `key-18446744073709551615` is the key 1 (`strtoul` wraps),
`KEY9` is no key. -/
example : strToRrtype (ascii "TYPE+007") = ok 7 ∧ strToRrtype (ascii "nonsense") = ok 0 ∧ strToRrclass (ascii "CLASS65536") = ok 0 ∧
    strToSvcparamkey (ascii "key-18446744073709551615") = 1 ∧ strToSvcparamkey (ascii "KEY9") = 65535 := by decide +kernel

example : KeyReads (ascii "key-18446744073709551615") 1 := (C50_exact _ 1 (by decide)).mp (by decide +kernel)

end Wdns
