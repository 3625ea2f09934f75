import Verif.Model.Misc

/-!
# C93: replacing a string in a text
-/

namespace Wdns
open Outcome

namespace Spec

/-- `r` is the text with every occurrence of `old` replaced by `new`, where occurrences are searched from the left, each one behind the previous one
and none in the text that was put in. -/
inductive Replaced (old new : List UInt8) : List UInt8 → List UInt8 → Prop
  | none (t : List UInt8) (h : ¬ old <:+: t) : Replaced old new t t
  | more (a rest r : List UInt8) (h : ∀ k < a.length, ¬ old <+: (a ++ old ++ rest).drop k) (hr : Replaced old new rest r) :
      Replaced old new (a ++ old ++ rest) (a ++ new ++ r)

end Spec

theorem strstr_none {h n : List UInt8} (e : strstr h n = none) : ¬ n <:+: h := by
  induction h with
  | nil =>
    rintro ⟨a, b, hab⟩
    simp only [strstr] at e
    split at e
    · cases e
    · rename_i hn
      simp only [List.append_eq_nil_iff] at hab
      exact hn hab.1.2
  | cons c t ih =>
    simp only [strstr] at e
    split at e
    · cases e
    · rename_i hp
      rw [Option.map_eq_none_iff] at e
      intro hi
      rcases List.infix_cons_iff.mp hi with h1 | h1
      · exact hp h1
      · exact ih e h1

theorem strstr_some {h n : List UInt8} {off : Nat} (e : strstr h n = some off) :
    n <+: h.drop off ∧ off ≤ h.length ∧ ∀ k < off, ¬ n <+: h.drop k := by
  induction h generalizing off with
  | nil =>
    simp only [strstr] at e
    split at e
    · rename_i hn
      cases e; subst hn
      exact ⟨by simp, by simp, by omega⟩
    · cases e
  | cons c t ih =>
    simp only [strstr] at e
    split at e
    · rename_i hp
      cases e
      exact ⟨by simpa using hp, by simp, by omega⟩
    · rename_i hp
      rw [Option.map_eq_some_iff] at e
      obtain ⟨o, ho, rfl⟩ := e
      obtain ⟨h1, h2, h3⟩ := ih ho
      refine ⟨by simpa using h1, by simpa using h2, ?_⟩
      intro k hk
      cases k with
      | zero => simpa using hp
      | succ k => simpa using h3 k (by omega)

theorem srLoop_spec {old new : List UInt8} (ho : old ≠ []) :
    ∀ (fuel : Nat) (str u : List UInt8), str.length < fuel →
      ∃ r, srLoop old new fuel str u = ok (u ++ r) ∧ Spec.Replaced old new str r := by
  intro fuel
  induction fuel with
  | zero => intro str u h; omega
  | succ fuel ih =>
    intro str u hf
    cases e : strstr str old with
    | none => exact ⟨str, by rw [srLoop, e], .none _ (strstr_none e)⟩
    | some off =>
      obtain ⟨⟨rest, hr⟩, hl, hk⟩ := strstr_some e
      have hs : str = str.take off ++ old ++ rest := by
        rw [List.append_assoc, hr, List.take_append_drop]
      have hol : 0 < old.length := List.length_pos_iff.mpr ho
      have hlen : (str.drop off).length = old.length + rest.length := by rw [← hr, List.length_append]
      have hlen' : str.length = off + (old.length + rest.length) := by
        rw [← hlen, List.length_drop]; omega
      obtain ⟨r, hr1, hr2⟩ := ih rest (u ++ str.take off ++ new) (by omega)
      refine ⟨str.take off ++ new ++ r, ?_, ?_⟩
      · rw [srLoop, e]
        dsimp only
        rw [if_neg (by omega), show (str.drop off).drop old.length = rest by rw [← hr]; simp, hr1]
        simp [List.append_assoc]
      · have := Spec.Replaced.more (old := old) (new := new) (str.take off) rest r (by
          intro k hk'
          rw [← hs]
          exact hk k (by rw [List.length_take] at hk'; omega)) hr2
        rwa [← hs] at this

/-- For a non-empty search string the result is the text with the occurrences replaced. -/
theorem C93_replace (str new : List UInt8) {old : List UInt8} (ho : old ≠ []) :
    ∃ r, stringReplace str old new = ok r ∧ Spec.Replaced old new str r := by
  unfold stringReplace
  cases e : strstr str old with
  | none => exact ⟨str, rfl, .none _ (strstr_none e)⟩
  | some off =>
    obtain ⟨r, h1, h2⟩ := srLoop_spec (new := new) ho (str.length + 1) str [] (by omega)
    exact ⟨r, by simpa using h1, h2⟩

/-- The specification leaves no choice. -/
theorem C93_unique {old new t r r' : List UInt8} (h : Spec.Replaced old new t r) (h' : Spec.Replaced old new t r') : r = r' := by
  induction h generalizing r' with
  | none t hn =>
    generalize ht : t = t' at h'
    cases h' with
    | none => rfl
    | more a rest r hk hr => exact absurd ⟨a, rest, ht.symm⟩ hn
  | more a rest r hk hr ih =>
    generalize ht : a ++ old ++ rest = t' at h'
    cases h' with
    | none _ hn => exact absurd ⟨a, rest, ht⟩ hn
    | more b rest' r2 hk' hr' =>
      have hlen : a.length = b.length := by
        apply Nat.le_antisymm
        · apply Nat.le_of_not_lt
          intro hlt
          apply hk b.length hlt
          rw [ht]
          simp
        · apply Nat.le_of_not_lt
          intro hlt
          apply hk' a.length hlt
          rw [← ht]
          simp
      rw [List.append_assoc, List.append_assoc] at ht
      obtain ⟨rfl, h2⟩ := List.append_inj ht hlen
      have h3 := List.append_cancel_left h2
      subst h3
      rw [ih hr']

/-- No occurrence: the text itself. -/
theorem C93_absent {str old : List UInt8} (new : List UInt8) (h : ¬ old <:+: str) : stringReplace str old new = ok str := by
  by_cases ho : old = []
  · subst ho; exact absurd (List.nil_infix) h
  · obtain ⟨r, h1, h2⟩ := C93_replace str new ho
    rw [h1, C93_unique h2 (.none _ h)]

/-- A case of `C93_absent`. -/
example : stringReplace (ascii "aXbXc") (ascii "XX") (ascii "y") = ok (ascii "aXbXc") := C93_absent _ (by decide)

theorem srLoop_empty (new : List UInt8) : ∀ (fuel : Nat) (str u : List UInt8), srLoop [] new fuel str u = hang := by
  intro fuel
  induction fuel with
  | zero => intro str u; rfl
  | succ fuel ih =>
    intro str u
    have : strstr str [] = some 0 := by cases str <;> simp [strstr]
    rw [srLoop, this]
    dsimp only
    rw [if_neg (by simp)]
    exact ih _ _

/-- An empty search string: whatever number of turns is allowed, the loop does not end. -/
theorem C93_empty_violated (fuel : Nat) (str new u : List UInt8) :
    srLoop [] new fuel str u = hang ∧ stringReplace str [] new = hang := by
  refine ⟨srLoop_empty new fuel str u, ?_⟩
  have : strstr str [] = some 0 := by cases str <;> simp [strstr]
  rw [stringReplace, this]
  exact srLoop_empty new _ _ _

/-- `aXbXXc` with `XX` by `X`, and `aaa` with `aa` by `b`: non-trivial cases. -/
example : stringReplace (ascii "aXbXXc") (ascii "XX") (ascii "XXX") = ok (ascii "aXbXXXc") ∧
    stringReplace (ascii "aaa") (ascii "aa") (ascii "b") = ok (ascii "ba") := by decide +kernel

end Wdns
