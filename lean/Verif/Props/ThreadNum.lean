import Verif.Model.Misc

/-!
# C96: thread numbers
-/

namespace Wdns
open Outcome

/-- The states that some interleaving of the threads leads to, with no limit on the number of threads or steps. -/
inductive TnReach : TnState → Prop
  | start : TnReach tnInit
  | step {s s' : TnState} (h : TnReach s) (i : Nat) (e : tnStep s i = ok (some s')) : TnReach s'

/-- What holds in every state.  `given i` says that `i` holds a number from its latest registration. -/
structure TnInv (s : TnState) : Prop where
  mutex : ∀ i, (s.pc i = .take ∨ s.pc i = .bump ∨ s.pc i = .unlock) → s.owner = some i
  bound : ∀ i, s.reg i = true → s.pc i ≠ .bump → s.num i < s.next
  bump : ∀ i, s.pc i = .bump → s.num i = s.next
  unlock : ∀ i, s.pc i = .unlock → s.num i < s.next
  apart : ∀ i j, i ≠ j → (s.reg i = true ∨ s.pc i = .bump ∨ s.pc i = .unlock) → (s.reg j = true ∨ s.pc j = .bump ∨ s.pc j = .unlock) →
    s.num i ≠ s.num j
  small : s.next < 2 ^ 31
  fresh : ∀ i, s.reg i = false → s.pc i ≠ .bump → s.pc i ≠ .unlock → s.num i = 0

theorem tn_inv {s : TnState} (h : TnReach s) : TnInv s := by
  induction h with
  | start => constructor <;> simp [tnInit]
  | @step s s' _ i e ih =>
    obtain ⟨m, b, bu, un, ap, sm, fr⟩ := ih
    have excl : ∀ k, (s.pc k = .take ∨ s.pc k = .bump ∨ s.pc k = .unlock) → s.owner = some i → k = i := by
      intro k hk ho
      have := m k hk
      rw [ho] at this
      exact (Option.some.inj this).symm
    unfold tnStep at e
    cases hp : s.pc i with
    | out =>
      simp only [hp, ok.injEq, Option.some.injEq] at e
      subst e
      constructor <;> dsimp only
      · intro k; split
        · simp
        · exact m k
      · intro k hr; split
        · rename_i hk; subst hk; intro _; exact b k hr (by simp [hp])
        · exact b k hr
      · intro k; split
        · simp
        · exact bu k
      · intro k; split
        · simp
        · exact un k
      · intro k l hkl hk hl
        apply ap k l hkl
        · split at hk
          · exact Or.inl (by simpa using hk)
          · exact hk
        · split at hl
          · exact Or.inl (by simpa using hl)
          · exact hl
      · exact sm
      · intro k hr; split
        · rename_i hk; subst hk; intro _ _; exact fr k hr (by simp [hp]) (by simp [hp])
        · exact fr k hr
    | lock =>
      simp only [hp] at e
      split at e
      · rename_i ho
        simp only [ok.injEq, Option.some.injEq] at e
        subst e
        have none_in : ∀ k, ¬ (s.pc k = .take ∨ s.pc k = .bump ∨ s.pc k = .unlock) := by
          intro k hk; have := m k hk; rw [ho] at this; cases this
        constructor <;> dsimp only
        · intro k; split
          · rename_i hk; subst hk; simp
          · intro h; exact absurd h (none_in k)
        · intro k hr; split
          · rename_i hk; subst hk; intro _; exact b k hr (by simp [hp])
          · exact b k hr
        · intro k; split
          · simp
          · exact bu k
        · intro k; split
          · simp
          · exact un k
        · intro k l hkl hk hl
          apply ap k l hkl
          · split at hk
            · exact Or.inl (by simpa using hk)
            · exact hk
          · split at hl
            · exact Or.inl (by simpa using hl)
            · exact hl
        · exact sm
        · intro k hr; split
          · rename_i hk; subst hk; intro _ _; exact fr k hr (by simp [hp]) (by simp [hp])
          · exact fr k hr
      · cases e
    | take =>
      have ho := m i (Or.inl hp)
      simp only [hp, ok.injEq, Option.some.injEq] at e
      subst e
      have lt_of : ∀ k, k ≠ i → (s.reg k = true ∨ s.pc k = .bump ∨ s.pc k = .unlock) → s.num k < s.next := by
        intro k hki hk
        have n1 : s.pc k ≠ .bump := fun h => hki (excl k (Or.inr (Or.inl h)) ho)
        have n2 : s.pc k ≠ .unlock := fun h => hki (excl k (Or.inr (Or.inr h)) ho)
        rcases hk with h | h | h
        · exact b k h n1
        · exact absurd h n1
        · exact absurd h n2
      constructor <;> dsimp only
      · intro k; split
        · rename_i hk; subst hk; intro _; exact ho
        · exact m k
      · intro k hr; split
        · simp
        · exact b k hr
      · intro k; split
        · intro _; rfl
        · exact bu k
      · intro k; split
        · simp
        · exact un k
      · intro k l hkl hk hl
        by_cases h1 : k = i
        · by_cases h2 : l = i
          · omega
          · rw [if_pos h1, if_neg h2]
            rw [if_neg h2] at hl
            have := lt_of l h2 hl
            omega
        · by_cases h2 : l = i
          · rw [if_neg h1, if_pos h2]
            rw [if_neg h1] at hk
            have := lt_of k h1 hk
            omega
          · rw [if_neg h1, if_neg h2]
            rw [if_neg h1] at hk
            rw [if_neg h2] at hl
            exact ap k l hkl hk hl
      · exact sm
      · intro k hr; split
        · simp
        · exact fr k hr
    | bump =>
      have ho := m i (Or.inr (Or.inl hp))
      have hn := bu i hp
      simp only [hp] at e
      split at e
      · cases e
      · rename_i hs
        simp only [ok.injEq, Option.some.injEq] at e
        subst e
        constructor <;> dsimp only
        · intro k; split
          · rename_i hk; subst hk; intro _; exact ho
          · exact m k
        · intro k hr; split
          · rename_i hk; subst hk; intro _; omega
          · intro hk; have := b k hr hk; omega
        · intro k; split
          · simp
          · rename_i hk; intro h; exact absurd (excl k (Or.inr (Or.inl h)) ho) hk
        · intro k; split
          · rename_i hk; subst hk; intro _; omega
          · intro h; have := un k h; omega
        · intro k l hkl hk hl
          apply ap k l hkl
          · split at hk
            · rename_i h; subst h; exact Or.inr (Or.inl hp)
            · exact hk
          · split at hl
            · rename_i h; subst h; exact Or.inr (Or.inl hp)
            · exact hl
        · omega
        · intro k hr; split
          · simp
          · exact fr k hr
    | unlock =>
      have ho := m i (Or.inr (Or.inr hp))
      have hn := un i hp
      simp only [hp, ok.injEq, Option.some.injEq] at e
      subst e
      constructor <;> dsimp only
      · intro k; split
        · simp
        · rename_i hk; intro h; exact absurd (excl k h ho) hk
      · intro k; split
        · rename_i hk; subst hk; intro _ _; exact hn
        · intro hr; exact b k hr
      · intro k; split
        · simp
        · exact bu k
      · intro k; split
        · simp
        · exact un k
      · intro k l hkl hk hl
        apply ap k l hkl
        · split at hk
          · rename_i h; subst h; exact Or.inr (Or.inr hp)
          · exact hk
        · split at hl
          · rename_i h; subst h; exact Or.inr (Or.inr hp)
          · exact hl
      · exact sm
      · intro k; split
        · simp
        · exact fr k

/-- In every interleaving, threads that have registered have different numbers. -/
theorem C96_distinct {s : TnState} (h : TnReach s) {i j : Nat} (hij : i ≠ j) (hi : s.reg i = true) (hj : s.reg j = true) :
    s.num i ≠ s.num j :=
  (tn_inv h).apart i j hij (Or.inl hi) (Or.inl hj)

/-- A thread's number is changed by its own steps only. -/
theorem C96_own {s s' : TnState} {i j : Nat} (e : tnStep s i = ok (some s')) (hij : j ≠ i) : s'.num j = s.num j := by
  unfold tnStep at e
  cases hp : s.pc i <;> simp only [hp] at e
  · simp only [ok.injEq, Option.some.injEq] at e; subst e; rfl
  · split at e
    · simp only [ok.injEq, Option.some.injEq] at e; subst e; rfl
    · cases e
  · simp only [ok.injEq, Option.some.injEq] at e; subst e; simp [hij]
  · split at e
    · cases e
    · simp only [ok.injEq, Option.some.injEq] at e; subst e; rfl
  · simp only [ok.injEq, Option.some.injEq] at e; subst e; rfl

/-- A thread that has not registered reads 0, which is also the number of the first one that registered. -/
theorem C96_unregistered {s : TnState} (h : TnReach s) {i : Nat} (hi : s.pc i = .out) (hr : s.reg i = false) : s.num i = 0 :=
  (tn_inv h).fresh i hr (by simp [hi]) (by simp [hi])

/-- The `n`-th registration gives `n`: a thread that comes out of the lock has the number of registrations before it. -/
theorem C96_consecutive {s s' : TnState} (h : TnReach s) {i : Nat} (hi : s.pc i = .bump) (e : tnStep s i = ok (some s')) :
    s'.num i + 1 = s'.next ∧ s'.next = s.next + 1 := by
  have hn := (tn_inv h).bump i hi
  simp only [tnStep, hi] at e
  split at e
  · cases e
  · simp only [ok.injEq, Option.some.injEq] at e
    subst e
    exact ⟨by dsimp only; omega, rfl⟩

/-- Only one thread is inside. -/
theorem C96_mutex {s : TnState} (h : TnReach s) {i j : Nat} (hi : s.pc i = .take ∨ s.pc i = .bump ∨ s.pc i = .unlock)
    (hj : s.pc j = .take ∨ s.pc j = .bump ∨ s.pc j = .unlock) : i = j := by
  have a := (tn_inv h).mutex i hi
  have b := (tn_inv h).mutex j hj
  rw [a] at b
  exact Option.some.inj b

/-- Runs a schedule. -/
def tnRun (sched : List Nat) (s : TnState) : Option TnState :=
  sched.foldl (fun o i => o.bind fun s => match tnStep s i with | ok r => r | _ => none) (some s)

/-- Three threads, interleaved: a reachable state in which two have registered. -/
example : ∃ s, TnReach s ∧ s.reg 7 = true ∧ s.reg 3 = true ∧ s.num 7 = 0 ∧ s.num 3 = 1 ∧ s.pc 4 = .lock := by
  refine ⟨(tnRun [3, 7, 7, 4, 7, 7, 7, 3, 3, 3, 3] tnInit).get (by decide), ?_, by decide, by decide, by decide, by decide, by decide⟩
  have step : ∀ {s : TnState} (i : Nat) (_ : TnReach s) {s' : TnState} (_ : tnStep s i = ok (some s')), TnReach s' := fun i h _ e => .step h i e
  exact step 3 (step 3 (step 3 (step 3 (step 7 (step 7 (step 7 (step 4 (step 7 (step 7 (step 3 .start rfl) rfl) rfl) rfl) rfl) rfl) rfl) rfl) rfl) rfl) rfl

end Wdns
