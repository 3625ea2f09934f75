import Verif.Model.Atomic

/-!
# C104: atomic counters and pointers
-/

namespace Wdns
open Outcome

/-! ## specification -/

/-- What an operation adds. -/
def opDelta : AOp → Int
  | .add i | .addNeg i => i
  | .sub i | .subTest i => -i
  | .inc | .incTest => 1
  | .dec | .decTest => -1
  | _ => 0

/-- The operation does not overwrite the counter. -/
def opAdds : AOp → Prop
  | .set _ | .zero => False
  | _ => True

/-- The value is one of a signed integer of `w` bits. -/
def InSigned (w : Nat) (x : Int) : Prop := -2 ^ (w - 1) ≤ x ∧ x < 2 ^ (w - 1)

/-- The sum of what some operations add. -/
def total (ops : List AOp) : Int := (ops.map opDelta).sum

/-- What an operation should return, if the sum so far, with it, is `c`. -/
def idealResult (c : Int) : AOp → Int
  | .read => c
  | .subTest _ | .decTest | .incTest => if c = 0 then 1 else 0
  | .addNeg _ => if c < 0 then 1 else 0
  | _ => 0

/-- The results of a run, in unbounded arithmetic. -/
def idealResults : Int → List AOp → List Int
  | _, [] => []
  | c, op :: ops => idealResult (c + opDelta op) op :: idealResults (c + opDelta op) ops

/-- All the sums along a run. -/
def sums : Int → List AOp → List Int
  | c, [] => [c]
  | c, op :: ops => c :: sums (c + opDelta op) ops

/-! ## arithmetic -/

theorem toSigned_in {w : Nat} (hw : 0 < w) {x : Int} (h : InSigned w x) : toSigned w x = x := by
  unfold toSigned
  obtain ⟨k, rfl⟩ : ∃ k, w = k + 1 := ⟨w - 1, by omega⟩
  obtain ⟨h1, h2⟩ := h
  simp only [Nat.add_sub_cancel] at h1 h2
  have e : ((2 ^ (k + 1) : Nat) : Int) = 2 * 2 ^ k := by
    rw [Nat.pow_succ]; push_cast; omega
  apply Int.bmod_eq_of_le <;> rw [e] <;> omega

theorem toSigned_range {w : Nat} (hw : 0 < w) (x : Int) : InSigned w (toSigned w x) := by
  unfold toSigned InSigned
  obtain ⟨k, rfl⟩ : ∃ k, w = k + 1 := ⟨w - 1, by omega⟩
  simp only [Nat.add_sub_cancel]
  have e : ((2 ^ (k + 1) : Nat) : Int) = 2 * 2 ^ k := by
    rw [Nat.pow_succ]; push_cast; omega
  have hp : 0 < 2 ^ (k + 1) := Nat.pow_pos (by decide)
  have h1 := Int.le_bmod (x := x) hp
  have h2 := Int.bmod_lt (x := x) hp
  rw [e] at h1 h2
  omega

theorem toSigned_add (w : Nat) (x y : Int) : toSigned w (toSigned w x + y) = toSigned w (x + y) := by
  unfold toSigned
  rw [Int.bmod_add_bmod]

theorem aExec_adds {w : Nat} {c : Int} {op : AOp} (h : opAdds op) (hc : toSigned w c = c) : (aExec w c op).2 = toSigned w (c + opDelta op) := by
  cases op <;> first | exact absurd h id | simp [aExec, opDelta, hc, Int.sub_eq_add_neg]

theorem aRun_adds {w : Nat} : ∀ (ops : List AOp) (x : Int), (∀ op ∈ ops, opAdds op) → (aRun w (toSigned w x) ops).2 = toSigned w (x + total ops) := by
  intro ops
  induction ops with
  | nil => intro x _; simp [aRun, total]
  | cons op ops ih =>
    intro x h
    have hc : toSigned w (toSigned w x) = toSigned w x := by
      have := toSigned_add w x 0; simpa using this
    rw [aRun]
    dsimp only
    rw [aExec_adds (h op (by simp)) hc, toSigned_add, ih _ (fun o ho => h o (List.mem_cons_of_mem _ ho))]
    simp only [total, List.map_cons, List.sum_cons]
    rw [Int.add_assoc]

theorem total_perm {a b : List AOp} (h : a.Perm b) : total a = total b := by
  induction h with
  | nil => rfl
  | cons x _ ih => simp only [total, List.map_cons, List.sum_cons] at ih ⊢; omega
  | swap x y l => simp only [total, List.map_cons, List.sum_cons]; omega
  | trans _ _ h1 h2 => rw [h1, h2]

/-! ## C104 -/

/-- **C104.** No update is lost: whatever threads add to and subtract from a counter, in whatever order, at the end it has changed by the sum of it all, modulo 2^w. -/
theorem C104_no_lost_update (w : Nat) (hw : w = 32 ∨ w = 64) (c : Int) (hc : InSigned w c) (ops : List AOp) (h : ∀ op ∈ ops, opAdds op) :
    (aRun w c ops).2 = toSigned w (c + total ops) ∧ InSigned w (aRun w c ops).2 ∧ (InSigned w (c + total ops) → (aRun w c ops).2 = c + total ops) := by
  have hw : 0 < w := by omega
  have e := aRun_adds (w := w) ops c h
  rw [toSigned_in hw hc] at e
  exact ⟨e, by rw [e]; exact toSigned_range hw _, fun hi => by rw [e, toSigned_in hw hi]⟩

/-- **C104.** The order of the threads does not matter for the value at the end. -/
theorem C104_order (w : Nat) (hw : w = 32 ∨ w = 64) (c : Int) (hc : InSigned w c) (ops ops' : List AOp) (hp : ops.Perm ops') (h : ∀ op ∈ ops, opAdds op) :
    (aRun w c ops).2 = (aRun w c ops').2 := by
  rw [(C104_no_lost_update w hw c hc ops h).1, (C104_no_lost_update w hw c hc ops' (fun o ho => h o (hp.mem_iff.mpr ho))).1]
  congr 2
  exact total_perm hp

/-- (Lemma.)  A run of two lists. -/
theorem aRun_after (w : Nat) : ∀ (a b : List AOp) (c : Int), (aRun w c (a ++ b)).2 = (aRun w (aRun w c a).2 b).2
  | [], _, _ => rfl
  | op :: a, b, c => by
    simp only [List.cons_append, aRun]
    exact aRun_after w a b _

/-- **C104.** Setting a counter forgets everything before: afterwards it is what was set, plus what has been added since. -/
theorem C104_set (w : Nat) (hw : w = 32 ∨ w = 64) (c i : Int) (ops ops' : List AOp) (h : ∀ op ∈ ops', opAdds op) (hi : InSigned w (i + total ops')) :
    (aRun w c (ops ++ .set i :: ops')).2 = i + total ops' := by
  rw [aRun_after, aRun]
  dsimp only
  rw [aExec, aRun_adds ops' i h, toSigned_in (by omega) hi]

example : (aRun 32 9 ([.inc, .zero] ++ .set 5 :: [.add 4, .dec])).2 = 8 := by decide +kernel

/-- **C104.** As long as the true sum is one of the values of the counter, every operation returns what it should: reading gives the sum, and the tests tell
whether it has become zero or negative. -/
theorem C104_results (w : Nat) (hw : w = 32 ∨ w = 64) : ∀ (ops : List AOp) (c : Int), (∀ op ∈ ops, opAdds op) → (∀ s ∈ sums c ops, InSigned w s) →
    (aRun w c ops).1 = idealResults c ops := by
  intro ops
  induction ops with
  | nil => intro c _ _; rfl
  | cons op ops ih =>
    intro c h hs
    have hw' : 0 < w := by omega
    have hc := hs c (by simp [sums])
    have hn : InSigned w (c + opDelta op) := hs _ (by
      simp only [sums, List.mem_cons]
      right
      cases ops <;> simp [sums])
    have h2 : (aExec w c op).2 = c + opDelta op := by
      rw [aExec_adds (h op (by simp)) (toSigned_in hw' hc), toSigned_in hw' hn]
    have h1 : (aExec w c op).1 = idealResult (c + opDelta op) op := by
      have hop := h op (by simp)
      have ht : ∀ x : Int, testInt (x == 0) = if x = 0 then 1 else 0 := fun x => by unfold testInt; simp only [beq_iff_eq]
      have hg : ∀ x : Int, testInt (x < 0) = if x < 0 then 1 else 0 := fun x => by unfold testInt; simp only [decide_eq_true_eq]
      cases op with
      | set i => exact absurd hop id
      | zero => exact absurd hop id
      | read => simp [aExec, idealResult, opDelta]
      | add i => rfl
      | sub i => rfl
      | inc => rfl
      | dec => rfl
      | subTest i => exact (ht _).trans (by rw [show toSigned w (c - i) = c + opDelta (.subTest i) from h2]; rfl)
      | decTest => exact (ht _).trans (by rw [show toSigned w (c - 1) = c + opDelta .decTest from h2]; rfl)
      | incTest => exact (ht _).trans (by rw [show toSigned w (c + 1) = c + opDelta .incTest from h2]; rfl)
      | addNeg i => exact (hg _).trans (by rw [show toSigned w (c + i) = c + opDelta (.addNeg i) from h2]; rfl)
    rw [aRun, idealResults]
    dsimp only
    rw [h1, h2, ih _ (fun o ho => h o (List.mem_cons_of_mem _ ho)) (fun s hs' => hs s (by simp [sums, hs']))]

/-- **C104.** A reference counter: `n` references are dropped with `dec_and_test`, in whatever order; exactly the last one is told that it was the last. -/
theorem C104_refcount (w : Nat) (hw : w = 32 ∨ w = 64) (n : Nat) (hn : 0 < n) (hr : (n : Int) < 2 ^ (w - 1)) :
    aRun w n (List.replicate n .decTest) = (List.replicate (n - 1) 0 ++ [1], 0) := by
  have hall : ∀ op ∈ List.replicate n AOp.decTest, opAdds op := by
    intro op h; rw [List.mem_replicate] at h; rw [h.2]; trivial
  have hs : ∀ (m : Nat) (k : Nat), ∀ s ∈ sums ((m : Int) + k) (List.replicate m AOp.decTest), (k : Int) ≤ s ∧ s ≤ m + k := by
    intro m
    induction m with
    | zero => intro k s h; simp [sums] at h; omega
    | succ m ih =>
      intro k s h
      rw [List.replicate_succ, sums, List.mem_cons] at h
      rcases h with h | h
      · omega
      · have e : ((m + 1 : Nat) : Int) + k + opDelta .decTest = (m : Int) + k := by simp only [opDelta]; omega
        rw [e] at h
        have := ih k s h
        omega
  have hi : ∀ s ∈ sums (n : Int) (List.replicate n AOp.decTest), InSigned w s := by
    intro s h
    have := hs n 0 s (by simpa using h)
    have h0 : (0 : Int) < 2 ^ (w - 1) := by omega
    unfold InSigned
    omega
  have hres : ∀ m : Nat, idealResults ((m : Int) + 1) (List.replicate (m + 1) AOp.decTest) = List.replicate m 0 ++ [1] := by
    intro m
    induction m with
    | zero => rfl
    | succ m ih =>
      rw [List.replicate_succ, idealResults]
      have e : ((m + 1 : Nat) : Int) + 1 + opDelta .decTest = (m : Int) + 1 := by simp only [opDelta]; omega
      rw [e, ih]
      simp only [idealResult, List.replicate_succ, List.cons_append, List.cons.injEq, and_true]
      rw [if_neg (by omega)]
  have htot : ∀ m : Nat, total (List.replicate m AOp.decTest) = -(m : Int) := by
    intro m
    induction m with
    | zero => rfl
    | succ m ih =>
      simp only [total, List.replicate_succ, List.map_cons, List.sum_cons, opDelta] at ih ⊢
      omega
  have hc : InSigned w n := hi _ (by cases n with | zero => simp [sums] | succ k => simp [sums, List.replicate_succ])
  have hfin := (C104_no_lost_update w hw n hc _ hall).2.2
  rw [htot, show (n : Int) + -(n : Int) = 0 by omega] at hfin
  have hz := hfin (by
    unfold InSigned
    have h0 : (0 : Int) < 2 ^ (w - 1) := by omega
    omega)
  have h1 := C104_results w hw _ _ hall hi
  obtain ⟨m, rfl⟩ : ∃ m, n = m + 1 := ⟨n - 1, by omega⟩
  rw [show ((m + 1 : Nat) : Int) = (m : Int) + 1 by omega, hres] at h1
  apply Prod.ext
  · rw [show ((m + 1 : Nat) : Int) = (m : Int) + 1 by omega, h1]; rfl
  · exact hz

/-- What the calls of `zero` returned. -/
def drained : List AOp → List Int → Int
  | .zero :: ops, r :: rs => r + drained ops rs
  | _ :: ops, _ :: rs => drained ops rs
  | _, _ => 0

/-- **C104.** Reading and resetting a 32-bit counter loses nothing: what the calls of `atomic_zero` returned, plus what is left, is what was there plus all that was
added, modulo 2^32, however the threads interleave. -/
theorem C104_zero : ∀ (ops : List AOp) (c : Int), InSigned 32 c → (∀ op ∈ ops, opAdds op ∨ op = .zero) →
    (2 ^ 32 : Int) ∣ (drained ops (aRun 32 c ops).1 + (aRun 32 c ops).2) - (c + total ops) := by
  intro ops
  induction ops with
  | nil => intro c _ _; simp [aRun, drained, total]
  | cons op ops ih =>
    intro c hc h
    have hcc := toSigned_in (w := 32) (by omega) hc
    have hrest : ∀ o ∈ ops, opAdds o ∨ o = .zero := fun o ho => h o (List.mem_cons_of_mem _ ho)
    rw [aRun]
    dsimp only
    simp only [total, List.map_cons, List.sum_cons]
    rcases h op (by simp) with ha | rfl
    · have e := aExec_adds (w := 32) ha hcc
      have hd : drained (op :: ops) ((aExec 32 c op).1 :: (aRun 32 (aExec 32 c op).2 ops).1) = drained ops (aRun 32 (aExec 32 c op).2 ops).1 := by
        cases op <;> first | exact absurd ha id | rfl
      rw [hd, e]
      have := ih (toSigned 32 (c + opDelta op)) (toSigned_range (by omega) _) hrest
      have hm : (2 ^ 32 : Int) ∣ toSigned 32 (c + opDelta op) - (c + opDelta op) := by
        unfold toSigned
        exact Int.dvd_bmod_sub_self
      have hadd := Int.dvd_add this hm
      simp only [total] at hadd
      have e2 : ∀ a b : Int, a = b → (2 ^ 32 : Int) ∣ a → (2 ^ 32 : Int) ∣ b := fun a b h => h ▸ id
      exact e2 _ _ (by omega) hadd
    · simp only [aExec, drained, opDelta, hcc]
      have := ih 0 (by unfold InSigned; decide) hrest
      simp only [total] at this
      have e2 : ∀ a b : Int, a = b → (2 ^ 32 : Int) ∣ a → (2 ^ 32 : Int) ∣ b := fun a b h => h ▸ id
      exact e2 _ _ (by omega) this

/-- **C104 is violated**: `atomic64_zero` returns an `int`, so that everything above 2^31 is lost. -/
theorem C104_zero64_violated : aRun 64 (2 ^ 32) [.zero] = ([0], 0) := by decide +kernel

/-- **C104.** What `atomic64_zero` returns is right exactly if the counter is one of the values of an `int`. -/
theorem C104_zero64_partial (c : Int) : (aExec 64 c .zero).1 = c ↔ InSigned 32 c := by
  constructor
  · intro h
    rw [show (aExec 64 c .zero).1 = toSigned 32 c from rfl] at h
    rw [← h]
    exact toSigned_range (by omega) _
  · exact toSigned_in (by omega)

/-! ## pointers -/

/-- The pointer after some calls of `atomic_ptr_set`, one after the other: the last one that succeeded. -/
def lastSet : Nat → List (Nat × Nat × Nat × Bool) → Nat
  | p, [] => p
  | p, (_, _, new, good) :: l => lastSet (if good then new else p) l

theorem lastSet_append (p : Nat) (l m : List (Nat × Nat × Nat × Bool)) : lastSet p (l ++ m) = lastSet (lastSet p l) m := by
  induction l generalizing p with
  | nil => rfl
  | cons x l ih => exact ih _

/-- The calls that have succeeded, in order, form a chain: each replaces the value that the one before it stored. -/
def Chain : Nat → List (Nat × Nat × Nat × Bool) → Prop
  | _, [] => True
  | p, (_, old, new, good) :: l => (good = true ↔ old = p) ∧ Chain (if good then new else p) l

theorem chain_append (p : Nat) (l : List (Nat × Nat × Nat × Bool)) (x : Nat × Nat × Nat × Bool) :
    Chain p (l ++ [x]) ↔ Chain p l ∧ (x.2.2.2 = true ↔ x.2.1 = lastSet p l) := by
  induction l generalizing p with
  | nil => obtain ⟨t, o, n, g⟩ := x; simp [Chain, lastSet]
  | cons y l ih =>
    obtain ⟨t, o, n, g⟩ := y
    simp only [List.cons_append, Chain, lastSet, ih, and_assoc]

/-- **C104.** Setting a pointer from several threads: at any time the pointer is the argument of the last call that returned true, or the initial value; and a
call returns true exactly if at its second step the pointer has the value that the call saw at its first. -/
theorem C104_ptr (p : Nat) : ∀ (es : List PsEv) (s : PsState), psRun ⟨p, fun _ => .idle, []⟩ es = some s → s.ptr = lastSet p s.done ∧ Chain p s.done := by
  have key : ∀ (es : List PsEv) (s s' : PsState), psRun s es = some s' → s.ptr = lastSet p s.done ∧ Chain p s.done → s'.ptr = lastSet p s'.done ∧ Chain p s'.done := by
    intro es
    induction es with
    | nil => intro s s' h hs; cases h; exact hs
    | cons e es ih =>
      intro s s' h hs
      simp only [psRun, Option.bind_eq_some_iff] at h
      obtain ⟨s1, h1, h2⟩ := h
      refine ih s1 s' h2 ?_
      cases e with
      | start t new =>
        unfold psStep at h1
        dsimp only at h1
        split at h1
        · cases h1; exact hs
        · cases h1
      | finish t =>
        unfold psStep at h1
        dsimp only at h1
        split at h1
        · cases h1
        · rename_i old new _
          cases h1
          dsimp only
          rw [lastSet_append, chain_append, ← hs.1]
          refine ⟨?_, hs.2, ?_⟩
          · simp only [lastSet, decide_eq_true_eq]
          · simp only [decide_eq_true_eq]
            exact eq_comm
  intro es s h
  exact key es _ s h ⟨rfl, trivial⟩

/-- **C104.** A call that no other call interrupts returns true and stores its argument. -/
theorem C104_ptr_alone (s : PsState) (t new : Nat) (h : s.pc t = .idle) :
    ∃ s', psRun s [.start t new, .finish t] = some s' ∧ s'.ptr = new ∧ s'.done = s.done ++ [(t, s.ptr, new, true)] := by
  simp [psRun, psStep, h]

/-- **C104 is violated**: a call can fail, so that its argument is not stored at all. -/
theorem C104_ptr_fails_violated : (psRun ⟨0, fun _ => .idle, []⟩ [.start 0 10, .start 1 20, .finish 0, .finish 1]).map (fun s => (s.ptr, s.done)) =
    some (10, [(0, 0, 10, true), (1, 0, 20, false)]) := by decide +kernel

/-! ## concrete cases -/

example : aRun 32 0 [.inc, .add 5, .decTest, .subTest 5, .addNeg (-1), .incTest] = ([0, 0, 0, 1, 1, 1], 0) := by decide +kernel
example : InSigned 32 (2 ^ 31 - 1) ∧ (aRun 32 (2 ^ 31 - 1) [.inc]).2 = -2 ^ 31 := by unfold InSigned; decide +kernel
example : ∀ s ∈ sums 3 [.decTest, .inc, .sub 2, .read], InSigned 32 s := by unfold InSigned; decide +kernel
example : aRun 32 7 [.add 3, .zero, .add 4, .zero, .inc] = ([0, 10, 0, 4, 0], 1) := by decide +kernel

end Wdns
