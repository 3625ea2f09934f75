import Verif.Lemmas.Bitmap

/-! Helper lemmas: reading lists of record types. -/

namespace Wdns
open Outcome Spec

theorem graphic_lower_fin : ∀ n < 256, (33 ≤ (lower (UInt8.ofNat n)).toNat ∧ (lower (UInt8.ofNat n)).toNat ≤ 126) ↔ (33 ≤ n ∧ n ≤ 126) := by
  decide +kernel

theorem graphic_lower {s : List UInt8} : Graphic (s.map lower) ↔ Graphic s := by
  have h : ∀ c : UInt8, (33 ≤ (lower c).toNat ∧ (lower c).toNat ≤ 126) ↔ (33 ≤ c.toNat ∧ c.toNat ≤ 126) := by
    intro c
    have := graphic_lower_fin c.toNat (u8_lt c)
    rwa [u8_ofNat_toNat] at this
  unfold Graphic
  simp [h]

theorem rrtype_zero : rrtypeToStr 0 = none := by decide +kernel

theorem rrtype_nonempty : ∀ e ∈ rrtypeCases, e.2 ≠ [] ∧ e.1 < 65536 := by decide +kernel

theorem decimal_graphic {d : List UInt8} {n : Nat} (h : IsDecimal d n) : Graphic d := by
  rw [decText_unique _ _ h]; exact graphic_decText n

theorem typeName_facts {tok : List UInt8} {t : Nat} (h : TypeName tok t) : Graphic tok ∧ tok ≠ [] ∧ t < 65536 ∧ strToRrtype tok = ok t ∧
    (t = 0 → casecmp tok (ascii "TYPE0") = .eq) := by
  rcases h with ⟨m, h1, h2⟩ | ⟨h0, p, d, rfl, h2, h3⟩
  · obtain ⟨n1, n2⟩ := rrtype_nonempty _ (switchOf_mem h1)
    refine ⟨?_, ?_, n2, C47_named_type t m tok h1 h2, ?_⟩
    · rw [← graphic_lower, h2, graphic_lower]; exact graphic_rrtype h1
    · rintro rfl
      simp only [List.map_nil] at h2
      exact n1 (List.map_eq_nil_iff.mp h2.symm)
    · rintro rfl; rw [rrtype_zero] at h1; cases h1
  · have hg : Graphic p := by rw [← graphic_lower, h2]; decide
    refine ⟨hg.append (decimal_graphic h3), ?_, by omega, C47_generic_type t h0 p d h2 h3, ?_⟩
    · intro e
      have := (List.append_eq_nil_iff.mp e).2
      exact h3.1 this
    · rintro rfl
      rw [casecmp_eq, List.map_append, h2, decText_unique _ _ h3]
      decide

theorem typeName_typeText {t : Nat} (h : t < 65536) : TypeName (typeText t) t := by
  unfold typeText
  cases hm : rrtypeToStr t with
  | some m => exact Or.inl ⟨m, hm, rfl⟩
  | none => exact Or.inr ⟨by omega, ascii "TYPE", decText t, rfl, by decide, decText_isDecimal t⟩

theorem blank_delim {c : UInt8} (h : Blank c) : isDelim c = true ∧ isSpace c = true := by
  rcases h with rfl | rfl | rfl | rfl <;> decide

theorem tokOf_blank {t s : List UInt8} {c : UInt8} (h : Graphic t) (hc : Blank c) :
    tokOf (t ++ c :: s) = t ∧ afterTok (t ++ c :: s) = c :: s := by
  have h1 : ∀ x ∈ t, (!isDelim x) = true := fun x hx => by simp [isDelim_graphic (h x hx).1]
  have h2 : ∀ x, (c :: s).head? = some x → (!isDelim x) = false := by
    intro x hx; simp at hx; subst hx; simp [(blank_delim hc).1]
  exact ⟨takeWhile_app h1 h2, dropWhile_app h1 h2⟩

theorem sTypes_cons (k : Nat) (c : UInt8) (cs : List UInt8) : sTypes (k + 1) (some (c :: cs)) =
    if isSpace c then sTypes k (some cs)
    else (strToRrtype (tokOf (c :: cs)) >>= fun t =>
      if t = 0 ∧ casecmp (tokOf (c :: cs)) (ascii "TYPE0") ≠ .eq then ok none
      else sTypes k (endPtr (c :: cs)) >>= fun r => ok (r.map (t :: ·))) := rfl

theorem sTypes_list {s : List UInt8} {ts : List Nat} (h : TypeList s ts) : ∀ fuel, s.length + 2 ≤ fuel → sTypes fuel (some s) = ok (some ts) := by
  induction h with
  | nil =>
    intro fuel hf
    obtain ⟨k, rfl⟩ : ∃ k, fuel = k + 1 := ⟨fuel - 1, by omega⟩
    rfl
  | @blank c s ts hc _ ih =>
    intro fuel hf
    obtain ⟨k, rfl⟩ : ∃ k, fuel = k + 1 := ⟨fuel - 1, by omega⟩
    rw [sTypes_cons, if_pos (blank_delim hc).2]
    exact ih k (by simp at hf; omega)
  | @last tok t hn =>
    intro fuel hf
    obtain ⟨k, rfl⟩ : ∃ k, fuel = k + 1 := ⟨fuel - 1, by omega⟩
    obtain ⟨f1, f2, -, f4, f5⟩ := typeName_facts hn
    have ht := tokOf_app f1 Sep.nil
    rw [List.append_nil] at ht
    cases tok with
    | nil => exact absurd rfl f2
    | cons c tok =>
      rw [sTypes_cons, if_neg (by simp [isSpace_graphic (f1 c (by simp)).1]), ht, f4, ok_bind, if_neg (by rintro ⟨e1, e2⟩; exact e2 (f5 e1)), endPtr_nil f1]
      obtain ⟨k, rfl⟩ : ∃ j, k = j + 1 := ⟨k - 1, by simp at hf; omega⟩
      rfl
  | @cons tok t c s ts hn hc _ ih =>
    intro fuel hf
    obtain ⟨k, rfl⟩ : ∃ k, fuel = k + 1 := ⟨fuel - 1, by omega⟩
    obtain ⟨f1, f2, -, f4, f5⟩ := typeName_facts hn
    obtain ⟨ht, ha⟩ := tokOf_blank (s := s) f1 hc
    cases tok with
    | nil => exact absurd rfl f2
    | cons a tok =>
      simp only [List.cons_append] at ht ha ⊢
      rw [sTypes_cons, if_neg (by simp [isSpace_graphic (f1 a (by simp)).1]), ht, f4, ok_bind, if_neg (by rintro ⟨e1, e2⟩; exact e2 (f5 e1)), endPtr, ha,
        if_neg (by simp)]
      have hlen : s.length + 3 ≤ k := by simp at hf; omega
      obtain ⟨k, rfl⟩ : ∃ j, k = j + 1 := ⟨k - 1, by omega⟩
      rw [sTypes_cons, if_pos (blank_delim hc).2, ih k (by omega)]
      rfl

theorem typeList_lt {s : List UInt8} {ts : List Nat} (h : TypeList s ts) : ∀ t ∈ ts, t < 65536 := by
  induction h with
  | nil => simp
  | blank _ _ ih => exact ih
  | last hn => intro t ht; rw [List.mem_singleton] at ht; subst ht; exact (typeName_facts hn).2.2.1
  | cons hn _ _ ih =>
    intro t ht
    rcases List.mem_cons.mp ht with rfl | ht
    · exact (typeName_facts hn).2.2.1
    · exact ih t ht

theorem typeList_drop {s : List UInt8} {ts : List Nat} (h : TypeList s ts) : TypeList (s.dropWhile isSpace) ts := by
  induction h with
  | nil => exact .nil
  | @blank c s ts hc _ ih => rw [List.dropWhile_cons, if_pos (blank_delim hc).2]; exact ih
  | @last tok t hn =>
    obtain ⟨f1, f2, -⟩ := typeName_facts hn
    have := dropSpace_graphic (rest := []) f1 f2
    rw [List.append_nil] at this
    rw [this]; exact .last hn
  | @cons tok t c s ts hn hc hs _ =>
    obtain ⟨f1, f2, -⟩ := typeName_facts hn
    rw [dropSpace_graphic f1 f2]; exact .cons hn hc hs

theorem typeList_nil {s : List UInt8} {ts : List Nat} (h : TypeList s ts) (he : s = []) : ts = [] := by
  cases h with
  | nil => rfl
  | blank => cases he
  | last hn => exact absurd he (typeName_facts hn).2.1
  | cons => simp at he

/-- Scanning the type bitmap field of a text. -/
theorem sFields_bitmap {s : List UInt8} {ts : List Nat} (h : TypeList s ts) (u : List UInt8) :
    ∃ p f, sFields [.typeBitmap] (some s) u = ok (.go p (u ++ f)) ∧ CanonBitmap f (· ∈ ts) := by
  rw [sFields]
  by_cases h0 : s.dropWhile isSpace = []
  · rw [if_pos h0]
    have := typeList_nil (typeList_drop h) h0
    subst this
    exact ⟨_, [], by rw [List.append_nil], [], ⟨List.Pairwise.nil, by simp⟩, rfl, by simp⟩
  · rw [if_neg h0, sField]
    unfold sBitmap
    rw [sTypes_list (typeList_drop h) _ (Nat.le_refl _)]
    obtain ⟨f, h1, h2⟩ := bmLoop_canon ts (typeList_lt h) u
    simp only [ok_bind, h1]
    exact ⟨none, f, rfl, h2⟩

end Wdns
