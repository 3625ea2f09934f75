import Verif.Model.Tables
import Verif.Lemmas.Numerals

/-!
# Lemmas about the name tables
-/

namespace Wdns
open Outcome Spec

theorem tolower_idem (c : UInt8) : lower (lower c) = lower c := by
  have h : ∀ n : Fin 256, lower (lower (UInt8.ofNat n.val)) = lower (UInt8.ofNat n.val) := by decide +kernel
  simpa using h ⟨c.toNat, u8_lt c⟩

theorem casecmp_map (a b : List UInt8) : casecmp (a.map lower) b = casecmp a b := by
  induction a generalizing b with
  | nil => rfl
  | cons x a ih =>
    cases b with
    | nil => rfl
    | cons y b => simp only [List.map_cons, casecmp, tolower_idem, ih]

theorem casecmp_eq (a b : List UInt8) : casecmp a b = .eq ↔ a.map lower = b.map lower := by
  induction a generalizing b with
  | nil => cases b <;> simp [casecmp]
  | cons x a ih =>
    cases b with
    | nil => simp [casecmp]
    | cons y b =>
      simp only [casecmp, List.map_cons, List.cons.injEq, ← ih]
      rw [← UInt8.toNat_inj]
      by_cases h1 : (lower x).toNat < (lower y).toNat
      · simp only [h1, if_true]; simp; omega
      · by_cases h2 : (lower x).toNat > (lower y).toNat
        · simp only [h1, h2, if_true, if_false]; simp; omega
        · simp only [h1, h2, if_false]
          have : (lower x).toNat = (lower y).toNat := by omega
          simp [this]

theorem bsearch_map (tab : List (Nat × List UInt8)) (key : List UInt8) : ∀ f l u, bsearch tab (key.map lower) f l u = bsearch tab key f l u := by
  intro f
  induction f with
  | zero => intro l u; rfl
  | succ f ih => intro l u; simp only [bsearch, casecmp_map, ih]

theorem search_map (tab : List (Nat × List UInt8)) (key : List UInt8) : search tab (key.map lower) = search tab key := bsearch_map _ _ _ _ _

theorem bsearch_total (tab : List (Nat × List UInt8)) (key : List UInt8) : ∀ f l u, u ≤ tab.length → u - l < f →
    (∃ e ∈ tab, bsearch tab key f l u = ok (some e.1) ∧ casecmp key e.2 = .eq) ∨ bsearch tab key f l u = ok none := by
  intro f
  induction f with
  | zero => intro l u _ h; omega
  | succ f ih =>
    intro l u hu hf
    simp only [bsearch]
    by_cases h : l < u
    · simp only [h, if_true]
      rw [List.getElem?_eq_getElem (by omega)]
      simp only
      cases hc : casecmp key (tab[(l + u) / 2]).2 with
      | lt => simp only; exact ih _ _ (by omega) (by omega)
      | gt => simp only; exact ih _ _ (by omega) (by omega)
      | eq => simp only; exact Or.inl ⟨_, List.getElem_mem _, rfl, hc⟩
    · simp only [h, if_false, or_true]

theorem search_total (tab : List (Nat × List UInt8)) (key : List UInt8) :
    (∃ e ∈ tab, search tab key = ok (some e.1) ∧ key.map lower = e.2.map lower) ∨ search tab key = ok none := by
  rcases bsearch_total tab key (tab.length + 1) 0 tab.length (Nat.le_refl _) (by omega) with ⟨e, h1, h2, h3⟩ | h
  · exact Or.inl ⟨e, h1, h2, (casecmp_eq _ _).mp h3⟩
  · exact Or.inr h

theorem switchOf_mem {cases : List (Nat × List UInt8)} {v : Nat} {s : List UInt8} (h : switchOf cases v = some s) : (v, s) ∈ cases := by
  unfold switchOf at h
  rw [Option.map_eq_some_iff] at h
  obtain ⟨e, h1, rfl⟩ := h
  have h2 := List.mem_of_find?_eq_some h1
  have h3 := List.find?_some h1
  simp only [decide_eq_true_eq] at h3
  rw [← h3]; exact h2

theorem fmtU_eq (n : Nat) : fmtU n = decText n := by
  have hd : ∀ k < 10, UInt8.ofNat (Nat.digitChar k).toNat = UInt8.ofNat (48 + k) := by decide +kernel
  induction n using Nat.strongRecOn with
  | ind n ih =>
    unfold fmtU at *
    rw [Nat.toDigits_eq_if (by omega)]
    by_cases h : n < 10
    · rw [if_pos h, decText_lt h, List.map_singleton, hd n h]
    · rw [if_neg h, List.map_append, ih (n / 10) (by omega), decText_ge (n := n) (by omega), List.map_singleton, hd _ (by omega)]

theorem scanDigits_step {c : UInt8} (hc : IsDigit c) (acc : Nat) (seen : Bool) (cs : List UInt8) :
    scanDigits acc seen (c :: cs) = scanDigits (acc * 10 + digitVal c) true cs := by
  unfold IsDigit at hc
  simp only [scanDigits, hc, and_self, if_true, digitVal]

theorem scanDigits_dec (rest : List UInt8) (hr : ∀ c, rest.head? = some c → ¬ IsDigit c) : ∀ (s : List UInt8) (acc : Nat) (seen : Bool),
    (∀ c ∈ s, IsDigit c) → (seen = true ∨ s ≠ []) →
    scanDigits acc seen (s ++ rest) = some (s.foldl (fun v b => 10 * v + digitVal b) acc, rest) := by
  intro s
  induction s with
  | nil =>
    intro acc seen _ h
    have hs : seen = true := by simpa using h
    subst hs
    cases rest with
    | nil => simp [scanDigits]
    | cons c cs =>
      have := hr c rfl
      unfold IsDigit at this
      simp [scanDigits, this]
  | cons c s ih =>
    intro acc seen hd _
    rw [List.cons_append, scanDigits_step (hd c (by simp)), ih _ _ (fun x hx => hd x (by simp [hx])) (Or.inl rfl), List.foldl_cons,
      Nat.mul_comm]

/-- Reading a decimal numeral. -/
theorem scanInt_dec {s : List UInt8} {n : Nat} (h : IsDecimal s n) (rest : List UInt8) (hr : ∀ c, rest.head? = some c → ¬ IsDigit c) :
    scanInt (s ++ rest) = some (false, n, rest) := by
  obtain ⟨h1, h2, -, h4⟩ := h
  cases s with
  | nil => exact absurd rfl h1
  | cons c s =>
    have hc := h2 c (by simp)
    have hsp : isSpace c = false := by unfold IsDigit at hc; simp only [isSpace, decide_eq_false_iff_not]; rw [← UInt8.toNat_inj]; simp; omega
    have hne1 : c ≠ 45 := by rintro rfl; unfold IsDigit at hc; simp at hc
    have hne2 : c ≠ 43 := by rintro rfl; unfold IsDigit at hc; simp at hc
    have := scanDigits_dec rest hr (c :: s) 0 false h2 (Or.inr (by simp))
    rw [List.cons_append] at this
    rw [List.cons_append, scanInt, List.dropWhile_cons_of_neg (by simp [hsp])]
    simp only [hne1, hne2, if_false, this, Option.map_some]
    unfold decVal at h4
    rw [h4]

theorem strtol_dec {s : List UInt8} {n : Nat} (h : IsDecimal s n) (hn : n < 2 ^ 63) : strtol s = ((n : Int), []) := by
  have := scanInt_dec h [] (by simp)
  rw [List.append_nil] at this
  simp only [strtol, this]
  rw [if_neg (by simp)]
  congr 1
  omega

theorem strtoul_dec {s : List UInt8} {n : Nat} (h : IsDecimal s n) (hn : n < 2 ^ 64) : strtoul s = (n, []) := by
  have := scanInt_dec h [] (by simp)
  rw [List.append_nil] at this
  simp only [strtoul, this]
  rw [if_neg (by omega), if_neg (by simp)]

theorem convertGeneric_dec {pre p d : List UInt8} {n : Nat} (hp : p.map lower = pre.map lower) (hd : IsDecimal d n) (hn : n ≤ 65535) :
    convertGeneric pre (p ++ d) = some n := by
  have hl : p.length = pre.length := by simpa using congrArg List.length hp
  have hdl : d.length ≠ 0 := by simpa using hd.1
  unfold convertGeneric
  rw [if_neg (by simp; omega), if_neg (by rw [← hl, List.take_left]; simp [casecmp_eq, hp]), ← hl, List.drop_left,
    strtol_dec hd (by omega)]
  simp only [ne_eq, not_true_eq_false, if_false]
  rw [if_neg (by omega)]
  simp

theorem convertGeneric_le {pre s : List UInt8} {n : Nat} (h : convertGeneric pre s = some n) : n ≤ 65535 := by
  unfold convertGeneric at h
  split at h
  · simp at h
  · split at h
    · simp at h
    · simp only at h
      split at h
      · simp at h
      · split at h
        · simp at h
        · simp only [Option.some.injEq] at h; omega

end Wdns
