import Verif.Lemmas.Ubuf

/-!
# C57: the growable buffer
-/

namespace Wdns
open Outcome Spec

/-- C57.  Start with no buffer and run any sequence of operations (in which no buffer is extended by itself):
as long as the caller respects the contract of the plain sequences, no operation touches a byte outside the
storage, fails an assertion or loops for ever; everything handed out is what the plain sequences hand out;
and in the end each buffer holds, at the start of its storage, exactly its plain sequence. -/
theorem C57_refines_partial (ops : List UOp) (hself : ∀ i j, UOp.extend i j ∈ ops → i ≠ j)
    (q : Seqs) (os : List Seen) (hq : seqRun ops [] = some (q, os)) :
    ∃ s os', uRun ops [] = ok (s, os') ∧ List.Forall₂ SeenAs os' os ∧
      ∀ (i : Nat) l, q[i]? = some (some l) → ∃ u, s[i]? = some (some u) ∧ UHolds u l := by
  obtain ⟨s, os', e, a, v⟩ := uRun_spec ops [] [] q os ⟨rfl, by simp⟩ hself hq
  exact ⟨s, os', e, v, fun i l h => by obtain ⟨u, e, iv⟩ := a.2 i l h; exact ⟨u, e, iv.1⟩⟩

/-- The part of C57 that fails: extending a buffer by itself reads freed storage as soon as it must grow. -/
theorem C57_self_extend_violated :
    seqRun [.init 2, .append 0 [1, 2], .extend 0 0] [] = some ([some [1, 2, 1, 2]], [.none, .none, .none]) ∧
    uRun [.init 2, .append 0 [1, 2], .extend 0 0] [] = ub := by
  constructor <;> decide +kernel

/-- Self-extension is harmless exactly when the storage has room for a second copy. -/
theorem C57_self_extend_partial (u : Ubuf) (l : List UInt8) (h : Ubuf.Inv u l) :
    (∃ u', u.extendSelf = ok u' ∧ UHolds u' (l ++ l)) ∨ (u.extendSelf = ub ∧ u.nAlloced < 2 * l.length) := by
  have h4 := h.1.2.2.2.1
  have h3 := h.1.2.2.1
  unfold Ubuf.extendSelf
  by_cases hk : u.n > u.nAlloced - u.n
  · rw [if_pos hk]; exact Or.inr ⟨rfl, by omega⟩
  · rw [if_neg hk]
    obtain ⟨u', e, i⟩ := Ubuf.extend_spec h h
    exact Or.inl ⟨u', e, i.1⟩

/-- A reservation keeps the contents, leaves room for the request, and grows the storage to less than twice
what is needed (or not at all). -/
theorem C57_reserve (u : Ubuf) (l : List UInt8) (h : Ubuf.Inv u l) (k : Nat) :
    ∃ u', u.reserve k = ok u' ∧ UHolds u' l ∧ l.length + k ≤ u'.v.length ∧
      (u' = u ∨ u'.v.length < 2 * (l.length + k)) := by
  obtain ⟨u', e, i, c, _, hb⟩ := Ubuf.reserve_spec h k
  obtain ⟨⟨h1, h2, h3, h4, h5⟩, h6, h7⟩ := i
  exact ⟨u', e, ⟨h1, h2, h3, h4, h5⟩, by omega, hb.imp id (fun _ => by omega)⟩

/-- Reading past the contents or advancing past the storage fails an assertion instead of touching memory. -/
theorem C57_assertions (u : Ubuf) (l : List UInt8) (h : Ubuf.Inv u l) :
    (∀ i, l.length ≤ i → u.value i = abort) ∧
    (∀ x, u.v.length < l.length + x → u.advance x = abort) := by
  have h4 := h.1.2.2.2.1
  have h1 := h.1.1
  have h3 := h.1.2.2.1
  constructor
  · intro i hi
    exact Ubuf.value_abort h (by simp [hi])
  · intro x hx
    simp only [Ubuf.advance]; rw [if_neg (by omega)]

/-- A sequence that grows, clips, formats, extends and detaches. -/
example : seqRun [.init 0, .append 0 [65, 66, 67], .add 0 0, .addFmt 0 [52, 50], .dupCstr [88], .extend 0 1,
      .clip 0 5, .fill 0 4 [1, 2, 3] 2, .detach 0] [] =
    some ([some [], some [88]], [.none, .none, .none, .none, .none, .none, .none, .none,
      .block [65, 66, 67, 52, 50, 1, 2]]) := by decide +kernel

example : (match uRun [.init 0, .append 0 [65, 66, 67], .add 0 0, .addFmt 0 [52, 50], .dupCstr [88],
      .extend 0 1, .clip 0 5, .fill 0 4 [1, 2, 3] 2] [] with
    | ok (s, _) => decide (s.length = 2) && (match s[0]? with
      | some (some u) => decide (u.nAlloced = 16 ∧ u.n = 7)
      | _ => false)
    | _ => false) = true := by decide +kernel

end Wdns
