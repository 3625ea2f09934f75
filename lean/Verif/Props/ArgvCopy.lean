import Verif.Model.Argv

/-!
# Properties of `argv_copy_args` and of the environment's words: C112
-/

namespace Wdns
open Outcome

/-- Words with one space between them. -/
def Spec.oneSpace (ws : List (List UInt8)) : List UInt8 := List.intercalate [32] ws

private theorem copyArg_eq : ∀ (a : List UInt8) (size : Nat), 1 ≤ size →
    copyArg a size = (a.take (size - 1), size - min a.length (size - 1))
  | [], size, h => by simp [copyArg]
  | c :: cs, size, h => by
    rw [copyArg]
    by_cases h2 : size ≥ 2
    · rw [if_pos h2, copyArg_eq cs (size - 1) (by omega)]
      obtain ⟨k, rfl⟩ : ∃ k, size = k + 2 := ⟨size - 2, by omega⟩
      simp
    · have : size = 1 := by omega
      subst this
      simp

private theorem copyLoop_rest : ∀ (as : List (List UInt8)) (size : Nat), 1 ≤ size →
    copyArgsLoop as false size = ((as.map fun a => 32 :: a).flatten).take (size - 1)
  | [], size, h => by simp [copyArgsLoop]
  | a :: as, size, h => by
    rw [copyArgsLoop]
    by_cases h2 : size < 2
    · have : size = 1 := by omega
      subst this
      simp
    · rw [if_neg h2]
      simp only [Bool.false_eq_true, if_false]
      rw [copyArg_eq a (size - 1) (by omega)]
      dsimp only
      rw [copyLoop_rest as _ (by omega)]
      obtain ⟨k, rfl⟩ : ∃ k, size = k + 2 := ⟨size - 2, by omega⟩
      simp only [List.map_cons, List.flatten_cons, List.cons_append, List.singleton_append, List.nil_append]
      generalize (as.map fun a => 32 :: a).flatten = X
      rw [show k + 2 - 1 = k + 1 by omega, show k + 1 - 1 = k by omega, List.take_succ_cons, List.take_append]
      congr 2
      congr 1
      by_cases h3 : a.length ≤ k
      · rw [Nat.min_eq_left h3]; omega
      · rw [Nat.min_eq_right (by omega)]; omega

private theorem copyLoop_first (a : List UInt8) (as : List (List UInt8)) (size : Nat) (h : 2 ≤ size) :
    copyArgsLoop (a :: as) true size = (a ++ (as.map fun a => 32 :: a).flatten).take (size - 1) := by
  rw [copyArgsLoop, if_neg (by omega)]
  simp only [if_true]
  rw [copyArg_eq a size (by omega)]
  dsimp only
  rw [copyLoop_rest as _ (by omega)]
  obtain ⟨k, rfl⟩ : ∃ k, size = k + 2 := ⟨size - 2, by omega⟩
  simp only [List.nil_append]
  generalize (as.map fun a => 32 :: a).flatten = X
  rw [show k + 2 - 1 = k + 1 by omega, List.take_append]
  congr 1
  congr 1
  by_cases h3 : a.length ≤ k + 1
  · rw [Nat.min_eq_left h3]; omega
  · rw [Nat.min_eq_right (by omega)]; omega

private theorem spaced_cons (a : List UInt8) (as : List (List UInt8)) :
    Spec.oneSpace (a :: as) = a ++ (as.map fun a => 32 :: a).flatten := by
  induction as generalizing a with
  | nil => simp [Spec.oneSpace, List.intercalate, List.intersperse]
  | cons b bs ih =>
    have := ih b
    simp only [Spec.oneSpace, List.intercalate] at this ⊢
    simp [List.intersperse, this]

/-- **C112.** `argv_copy_args` writes exactly the arguments behind the program's name, with one space between them, as far
as they fit in front of the NUL: for every buffer size and every list of arguments, never more than `size` characters. -/
theorem C112_copy (argv : List (List UInt8)) (size : Nat) (h : 1 ≤ size) :
    argvCopyArgs argv size = (Spec.oneSpace (argv.drop 1)).take (size - 1) ++ [0] ∧ (argvCopyArgs argv size).length ≤ size := by
  have key : argvCopyArgs argv size = (Spec.oneSpace (argv.drop 1)).take (size - 1) ++ [0] := by
    unfold argvCopyArgs
    rw [if_neg (by omega)]
    by_cases h1 : size = 1
    · rw [if_pos h1, h1]; simp
    · rw [if_neg h1]
      cases hd : argv.drop 1 with
      | nil => simp [copyArgsLoop, Spec.oneSpace, List.intercalate]
      | cons a as => rw [copyLoop_first _ _ _ (by omega), spaced_cons]
  refine ⟨key, ?_⟩
  rw [key]
  simp
  omega

/-- **C112.** A size of 0: nothing is written. -/
theorem C112_copy_zero (argv : List (List UInt8)) : argvCopyArgs argv 0 = [] := rfl

private def prog3 : List (List UInt8) := [ascii "prog", ascii "-v", ascii "file"]

example : argvCopyArgs prog3 100 = ascii "-v file" ++ [0] := by decide +kernel
example : argvCopyArgs prog3 6 = ascii "-v fi" ++ [0] := by decide +kernel
example : argvCopyArgs prog3 4 = ascii "-v " ++ [0] := by decide +kernel

/-- The text `s` is the words `ws` with blanks (spaces and tabs) in front, behind and, at least one, between them. -/
inductive Spec.Words : List UInt8 → List (List UInt8) → Prop where
  | nil : Spec.Words [] []
  | blank (c : UInt8) (s ws) : (c = 32 ∨ c = 9) → Spec.Words s ws → Spec.Words (c :: s) ws
  | last (w : List UInt8) : w ≠ [] → (∀ c ∈ w, ¬ (c = 32 ∨ c = 9)) → Spec.Words w [w]
  | word (w : List UInt8) (c : UInt8) (s ws) : w ≠ [] → (∀ c ∈ w, ¬ (c = 32 ∨ c = 9)) → (c = 32 ∨ c = 9) →
      Spec.Words s ws → Spec.Words (w ++ c :: s) (w :: ws)

private theorem vectorize_words : ∀ (s cur : List UInt8), (∀ c ∈ cur, ¬ (c = 32 ∨ c = 9)) →
    Spec.Words (cur ++ s) (vectorize s cur)
  | [], cur, h => by
    rw [vectorize]
    by_cases hc : cur = []
    · subst hc; simp; exact .nil
    · rw [if_neg hc]; simp; exact .last cur hc h
  | c :: cs, cur, h => by
    rw [vectorize]
    by_cases hb : c = 32 ∨ c = 9
    · rw [if_pos hb]
      by_cases hc : cur = []
      · subst hc; simp; exact .blank c _ _ hb (by simpa using vectorize_words cs [] (by simp))
      · rw [if_neg hc]; exact .word cur c _ _ hc h hb (by simpa using vectorize_words cs [] (by simp))
    · rw [if_neg hb]
      have := vectorize_words cs (cur ++ [c]) (by
        intro d hd; rcases List.mem_append.mp hd with h1 | h1
        · exact h d h1
        · rw [List.mem_singleton] at h1; rw [h1]; exact hb)
      simpa using this

private theorem words_vectorize {s : List UInt8} {ws : List (List UInt8)} (h : Spec.Words s ws) : vectorize s [] = ws := by
  have app : ∀ (w t cur : List UInt8), (∀ c ∈ w, ¬ (c = 32 ∨ c = 9)) → vectorize (w ++ t) cur = vectorize t (cur ++ w) := by
    intro w
    induction w with
    | nil => intro t cur _; simp
    | cons c cs ih =>
      intro t cur hw
      rw [List.cons_append, vectorize, if_neg (hw c (by simp)), ih t _ (fun d hd => hw d (by simp [hd]))]
      simp
  induction h with
  | nil => rfl
  | blank c s ws hb _ ih => rw [vectorize, if_pos hb]; simpa using ih
  | last w hn hw =>
    have := app w [] [] hw
    simp at this
    rw [this, vectorize, if_neg hn]
  | word w c s ws hn hw hb _ ih =>
    rw [app w _ [] hw, List.nil_append, vectorize, if_pos hb, if_neg hn, ih]

/-- **C112.** The environment's value is split exactly into its words, for every text. -/
theorem C112_words (s : List UInt8) (ws : List (List UInt8)) : vectorize s [] = ws ↔ Spec.Words s ws := by
  constructor
  · intro h; rw [← h]; simpa using vectorize_words s [] (by simp)
  · exact words_vectorize

example : vectorize (ascii " -v  --out x ") [] = [ascii "-v", ascii "--out", ascii "x"] := by decide +kernel

end Wdns
