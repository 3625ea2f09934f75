import Verif.Lemmas.Queue

/-!
# C82: the lock-free queue — libmy/my_queue_mb.c
-/

namespace Wdns
open Outcome Spec

/-! ## Initialisation -/

theorem pow_of_and : ∀ n : Nat, 1 ≤ n → (n - 1) &&& n = 0 → ∃ e, n = 2 ^ e := by
  intro n
  induction n using Nat.strongRecOn with
  | _ n ih =>
    intro h1 h2
    by_cases hone : n = 1
    · exact ⟨0, hone⟩
    have hd : ((n - 1) / 2) &&& (n / 2) = 0 := by
      rw [← Nat.and_div_two, h2]
    rcases Nat.mod_two_eq_zero_or_one n with h | h
    · have e : (n - 1) / 2 = n / 2 - 1 := by omega
      rw [e] at hd
      obtain ⟨k, hk⟩ := ih (n / 2) (by omega) (by omega) hd
      exact ⟨k + 1, by rw [Nat.pow_succ]; omega⟩
    · have e : (n - 1) / 2 = n / 2 := by omega
      rw [e, Nat.and_self] at hd
      omega

/-- **C82.** `my_queue_mb_init` gives a queue exactly for a number of elements that is a power of two and at least 2. -/
theorem C82_init (n sz : Nat) : queueInit n sz = some ⟨n, sz⟩ ∧ (∃ e, 1 ≤ e ∧ n = 2 ^ e) ∨ queueInit n sz = none ∧ ¬ (∃ e, 1 ≤ e ∧ n = 2 ^ e) := by
  unfold queueInit
  by_cases h : n < 2 ∨ (n - 1) &&& n ≠ 0
  · right
    refine ⟨if_pos h, ?_⟩
    rintro ⟨e, he, rfl⟩
    rcases h with h | h
    · have : (2 : Nat) ^ 1 ≤ 2 ^ e := Nat.pow_le_pow_right (by decide) he
      omega
    · apply h
      rw [Nat.and_comm, Nat.and_two_pow_sub_one_eq_mod, Nat.mod_self]
  · left
    refine ⟨if_neg h, ?_⟩
    simp only [not_or, Nat.not_lt, ne_eq, Decidable.not_not] at h
    obtain ⟨e, he⟩ := pow_of_and n (by omega) h.2
    refine ⟨e, ?_, he⟩
    rcases Nat.eq_zero_or_pos e with rfl | hp
    · omega
    · exact hp

theorem good_of_init {n sz : Nat} {c : QConf} (h : queueInit n sz = some c) (h1 : n < 2 ^ 32) (h2 : (n - 1) * sz < 2 ^ 32) :
    c.Good ∧ c.numElems = n ∧ c.sizeofElem = sz := by
  rcases C82_init n sz with ⟨k1, e, he, rfl⟩ | ⟨k1, -⟩
  · rw [k1, Option.some.injEq] at h
    subst h
    refine ⟨⟨⟨e, rfl⟩, ?_, h1, h2⟩, rfl, rfl⟩
    have : (2 : Nat) ^ 1 ≤ 2 ^ e := Nat.pow_le_pow_right (by decide) he
    exact this
  · rw [k1] at h; cases h

/-! ## Every schedule -/

theorem inserted_append (a b : List QEvent) : inserted (a ++ b) = inserted a ++ inserted b := by
  induction a with
  | nil => rfl
  | cons e es ih =>
    rcases e with ⟨x, _ | _, k⟩ | ⟨_ | x, k⟩ <;> simp [inserted, ih]

theorem removed_append (a b : List QEvent) : removed (a ++ b) = removed a ++ removed b := by
  induction a with
  | nil => rfl
  | cons e es ih =>
    rcases e with ⟨x, _ | _, k⟩ | ⟨_ | x, k⟩ <;> simp [removed, ih]

/-- The items of a schedule have the size of an element. -/
def Sized (sz : Nat) (acts : List QAct) : Prop := ∀ x, QAct.prod x ∈ acts → x.length = sz

theorem step_inv {c : QConf} (hg : c.Good) {s ins outs m V} (h : QInv c s ins outs m V) (a : QAct) (ha : Sized c.sizeofElem [a]) :
    ∃ s' e m' V', queueStep c s a = ok (s', e) ∧ QInv c s' (ins ++ inserted e.toList) (outs ++ removed e.toList) m' V' := by
  cases a with
  | prod item =>
    cases hp : s.prod with
    | none =>
      by_cases hf : ins.length = V + (c.numElems - 1)
      · exact ⟨s, _, m, V, prod_full hg h hp item hf, by simpa [inserted, removed] using h⟩
      · have := h.bound
        obtain ⟨s', h1, h2, -⟩ := prod_begin hg h hp item (ha item (by simp)) (by omega)
        exact ⟨s', _, m, V, h1, by simpa [inserted, removed] using h2⟩
    | some i =>
      by_cases hk : i.k < c.sizeofElem
      · obtain ⟨s', h1, h2, -⟩ := prod_copy hg h hp item hk
        exact ⟨s', _, m, V, h1, by simpa [inserted, removed] using h2⟩
      · obtain ⟨s', h1, h2, -⟩ := prod_end hg h hp item hk
        exact ⟨s', _, m, V, h1, by simpa [inserted, removed] using h2⟩
  | cons =>
    cases hc : s.cons with
    | none =>
      by_cases he : outs.length = m / (c.sizeofElem + 1)
      · exact ⟨s, _, m, V, cons_empty hg h hc he, by simpa [inserted, removed] using h⟩
      · have := h.rm
        obtain ⟨s', h1, h2, -⟩ := cons_begin hg h hc (by omega)
        exact ⟨s', _, m, V, h1, by simpa [inserted, removed] using h2⟩
    | some r =>
      by_cases hk : r.got.length < c.sizeofElem
      · obtain ⟨s', h1, h2, -⟩ := cons_copy hg h hc hk
        exact ⟨s', _, m, V, h1, by simpa [inserted, removed] using h2⟩
      · by_cases hb : s.cbuf = []
        · obtain ⟨s', h1, h2, -⟩ := cons_end hg h hc hk hb
          exact ⟨s', _, m, V, h1, by simpa [inserted, removed] using h2⟩
        · exact ⟨s, _, m, V, cons_wait hc hk hb, by simpa [inserted, removed] using h⟩
  | flushP =>
    obtain ⟨m', h1, -⟩ := flush_prod hg h
    exact ⟨_, _, m', V, rfl, by simpa [inserted, removed] using h1⟩
  | flushC =>
    obtain ⟨V', -, h1⟩ := flush_cons h
    exact ⟨_, _, m, V', rfl, by simpa [inserted, removed] using h1⟩

theorem run_inv {c : QConf} (hg : c.Good) : ∀ (acts : List QAct) {s ins outs m V}, QInv c s ins outs m V → Sized c.sizeofElem acts →
    ∃ s' es m' V', queueRun c s acts = ok (s', es) ∧ QInv c s' (ins ++ inserted es) (outs ++ removed es) m' V'
  | [], s, ins, outs, m, V, h, _ => ⟨s, [], m, V, rfl, by simpa [inserted, removed] using h⟩
  | a :: acts, s, ins, outs, m, V, h, hs => by
    obtain ⟨s1, e, m1, V1, h1, h2⟩ := step_inv hg h a fun x hx => hs x (by rw [List.mem_singleton] at hx; simp [hx])
    obtain ⟨s2, es, m2, V2, h3, h4⟩ := run_inv hg acts h2 fun x hx => hs x (by simp [hx])
    refine ⟨s2, e.toList ++ es, m2, V2, ?_, ?_⟩
    · rw [queueRun, h1, ok_bind]
      simp only
      rw [h3, ok_bind]
    · rw [inserted_append, removed_append, ← List.append_assoc, ← List.append_assoc]; exact h4

theorem reach_inv {n sz : Nat} {c : QConf} (hi : queueInit n sz = some c) (h1 : n < 2 ^ 32) (h2 : (n - 1) * sz < 2 ^ 32) {acts : List QAct}
    (hs : Sized sz acts) {s es} (hr : queueRun c (queueStart c) acts = ok (s, es)) : ∃ m V, QInv c s (inserted es) (removed es) m V := by
  obtain ⟨hg, -, hsz⟩ := good_of_init hi h1 h2
  obtain ⟨s', es', m, V, h3, h4⟩ := run_inv hg acts (QInv.start c hg) (by rw [hsz]; exact hs)
  rw [hr, ok.injEq, Prod.mk.injEq] at h3
  obtain ⟨rfl, rfl⟩ := h3
  exact ⟨m, V, by simpa using h4⟩

/-- **C82.** One producer and one consumer, under every schedule of their steps and of their store buffers: no access outside the storage;
the items removed are the items inserted, in the same order, none lost, duplicated or torn; there are never more than `n - 1` in the queue.
(`n` is below 2^32 as an `unsigned`; the storage has at most 2^32 octets up to the last element, see `C82_wrap_violated`.) -/
theorem C82_fifo (n sz : Nat) (c : QConf) (hi : queueInit n sz = some c) (h1 : n < 2 ^ 32) (h2 : (n - 1) * sz < 2 ^ 32) (acts : List QAct)
    (hs : Sized sz acts) : ∃ s es, queueRun c (queueStart c) acts = ok (s, es) ∧ removed es <+: inserted es ∧
      (inserted es).length ≤ (removed es).length + (n - 1) := by
  obtain ⟨hg, hn, hsz⟩ := good_of_init hi h1 h2
  obtain ⟨s, es, m, V, h3, h4⟩ := run_inv hg acts (QInv.start c hg) (by rw [hsz]; exact hs)
  simp only [List.nil_append] at h4
  refine ⟨s, es, h3, ?_, ?_⟩
  · rw [h4.outs]; exact List.take_prefix _ _
  · have := h4.bound; have := h4.V_le; rw [← hn]; omega

/-- **C82.** An insertion is refused exactly if, at the moment it looks, there are `n - 1` items in the queue, counting as still there an item
whose removal has not reached memory. -/
theorem C82_insert_refused (n sz : Nat) (c : QConf) (hi : queueInit n sz = some c) (h1 : n < 2 ^ 32) (h2 : (n - 1) * sz < 2 ^ 32)
    (acts : List QAct) (hs : Sized sz acts) (s : QState) (es : List QEvent) (hr : queueRun c (queueStart c) acts = ok (s, es))
    (hp : s.prod = none) (item : List UInt8) (hl : item.length = sz) :
    (queueStep c s (.prod item) = ok (s, some (.inserted item false 0)) ∧
      (inserted es).length + s.cbuf.length = (removed es).length + (n - 1)) ∨
    (∃ s', queueStep c s (.prod item) = ok (s', none) ∧ s'.prod ≠ none ∧
      (inserted es).length + s.cbuf.length < (removed es).length + (n - 1)) := by
  obtain ⟨hg, hn, hsz⟩ := good_of_init hi h1 h2
  obtain ⟨m, V, h⟩ := reach_inv hi h1 h2 hs hr
  have hcb : V + s.cbuf.length = (removed es).length := by
    rcases h.cbuf with ⟨h3, h4⟩ | ⟨h3, h4⟩ <;> rw [h4] <;> simp <;> omega
  have := h.bound
  by_cases hf : (inserted es).length = V + (c.numElems - 1)
  · exact Or.inl ⟨prod_full hg h hp item hf, by omega⟩
  · have hVP : V ≤ (inserted es).length := by have := h.V_le; have := h.rm; have := h.m_div; omega
    refine Or.inr ⟨{ s with prod := some ⟨item, (inserted es).length % c.numElems, V + (c.numElems - 1) - (inserted es).length, 0⟩ },
      ?_, by simp, by omega⟩
    · show prodStep c s item = _
      simp only [prodStep, hp, h.ownHead hp, h.tail, hg.space hVP h.bound]
      rw [if_pos (by omega), if_pos (by omega)]

theorem heads_count (c : QConf) (all : List (List UInt8)) (m : Nat) : ∀ k, (((List.range' m k).map (qStore c all)).filterMap QStore.headVal).length =
    (m + k) / (c.sizeofElem + 1) - m / (c.sizeofElem + 1) := by
  intro k
  induction k with
  | zero => simp
  | succ k ih =>
    rw [List.range'_concat, List.map_append, List.filterMap_append, List.length_append, ih]
    have hw : 0 < c.sizeofElem + 1 := by omega
    have em := Nat.mod_add_div (m + k) (c.sizeofElem + 1)
    have hmm := Nat.mod_lt (m + k) hw
    have hmono : m / (c.sizeofElem + 1) ≤ (m + k) / (c.sizeofElem + 1) := Nat.div_le_div_right (by omega)
    simp only [Nat.one_mul, List.map_cons, List.map_nil]
    by_cases hk : (m + k) % (c.sizeofElem + 1) < c.sizeofElem
    · have hdiv : (m + (k + 1)) / (c.sizeofElem + 1) = (m + k) / (c.sizeofElem + 1) := by
        rw [← Nat.add_assoc]
        conv => lhs; rw [← em, Nat.add_right_comm, Nat.add_mul_div_left _ _ hw, Nat.div_eq_of_lt (by omega : (m + k) % (c.sizeofElem + 1) + 1 < _)]
        omega
      rw [hdiv]
      simp [qStore, hk, QStore.headVal]
    · have hdiv : (m + (k + 1)) / (c.sizeofElem + 1) = (m + k) / (c.sizeofElem + 1) + 1 := by
        have : m + (k + 1) = (c.sizeofElem + 1) * ((m + k) / (c.sizeofElem + 1) + 1) := by rw [Nat.mul_add, Nat.mul_one]; omega
        rw [this, Nat.mul_div_cancel_left _ hw]
      rw [hdiv]
      simp [qStore, hk, QStore.headVal]
      omega

/-- **C82.** A removal finds nothing exactly if, at the moment it looks, all items have been removed whose insertion has reached memory. -/
theorem C82_remove_refused (n sz : Nat) (c : QConf) (hi : queueInit n sz = some c) (h1 : n < 2 ^ 32) (h2 : (n - 1) * sz < 2 ^ 32)
    (acts : List QAct) (hs : Sized sz acts) (s : QState) (es : List QEvent) (hr : queueRun c (queueStart c) acts = ok (s, es))
    (hc : s.cons = none) :
    (queueStep c s .cons = ok (s, some (.removed none 0)) ∧
      (removed es).length + (s.pbuf.filterMap QStore.headVal).length = (inserted es).length) ∨
    (∃ s', queueStep c s .cons = ok (s', none) ∧ s'.cons ≠ none ∧
      (removed es).length + (s.pbuf.filterMap QStore.headVal).length < (inserted es).length) := by
  obtain ⟨hg, hn, hsz⟩ := good_of_init hi h1 h2
  obtain ⟨m, V, h⟩ := reach_inv hi h1 h2 hs hr
  have hcount : m / (c.sizeofElem + 1) + (s.pbuf.filterMap QStore.headVal).length = (inserted es).length := by
    rw [h.pbuf, heads_count, show m + ((inserted es).length * (c.sizeofElem + 1) + curK s - m) = (inserted es).length * (c.sizeofElem + 1) + curK s by
      have := h.le; omega, (div_of (by have := curK_le h; omega)).1]
    have := h.m_div
    omega
  have := h.rm
  by_cases he : (removed es).length = m / (c.sizeofElem + 1)
  · exact Or.inl ⟨cons_empty hg h hc he, by omega⟩
  · have hb : m / (c.sizeofElem + 1) ≤ (removed es).length + (c.numElems - 1) := by have := h.m_div; have := h.bound; have := h.V_le; omega
    refine Or.inr ⟨{ s with cons := some ⟨(removed es).length % c.numElems, m / (c.sizeofElem + 1) - (removed es).length, []⟩ },
      ?_, by simp, by omega⟩
    · show consStep c s = _
      simp only [consStep, hc, h.ownTail, h.head, hg.count h.rm hb]
      rw [if_pos (by omega)]

/-- **C82.** The number a successful insertion reports can still be inserted, and the number a successful removal reports can still be
removed, whatever happens meanwhile on the other side. -/
theorem C82_reported (n sz : Nat) (c : QConf) (hi : queueInit n sz = some c) (h1 : n < 2 ^ 32) (h2 : (n - 1) * sz < 2 ^ 32)
    (acts : List QAct) (hs : Sized sz acts) (a : QAct) (ha : Sized sz [a]) (s s' : QState) (es : List QEvent)
    (hr : queueRun c (queueStart c) acts = ok (s, es)) :
    (∀ x k, queueStep c s a = ok (s', some (.inserted x true k)) → (inserted es).length + 1 + k ≤ (removed es).length + (n - 1)) ∧
    (∀ x k, queueStep c s a = ok (s', some (.removed (some x) k)) → (removed es).length + 1 + k ≤ (inserted es).length) := by
  obtain ⟨hg, hn, hsz⟩ := good_of_init hi h1 h2
  obtain ⟨m, V, h⟩ := reach_inv hi h1 h2 hs hr
  have hV := h.V_le
  constructor
  · intro x k he
    cases a with
    | prod item =>
      cases hp : s.prod with
      | none =>
        have := h.bound
        by_cases hf : (inserted es).length = V + (c.numElems - 1)
        · have := prod_full hg h hp item hf
          rw [queueStep, this] at he; cases he
        · obtain ⟨s'', h1, -, -⟩ := prod_begin hg h hp item (by rw [hsz]; exact ha item (by simp)) (by omega)
          rw [queueStep, h1] at he; cases he
      | some i =>
        by_cases hk : i.k < c.sizeofElem
        · obtain ⟨s'', h1, -, -⟩ := prod_copy hg h hp item hk
          rw [queueStep, h1] at he; cases he
        · obtain ⟨s'', h1, -, -, h4⟩ := prod_end hg h hp item hk
          rw [queueStep, h1] at he
          cases he
          omega
    | cons =>
      exfalso
      simp only [queueStep, consStep] at he
      cases hc : s.cons with
      | none => simp only [hc] at he; split at he <;> cases he
      | some r =>
        simp only [hc] at he
        split at he
        · obtain ⟨b, -, hb⟩ := bind_eq_ok.mp he; cases hb
        · split at he <;> cases he
    | flushP => cases he
    | flushC => cases he
  · intro x k he
    cases a with
    | prod item =>
      exfalso
      simp only [queueStep, prodStep] at he
      cases hp : s.prod with
      | none => simp only [hp] at he; split at he
                · split at he <;> cases he
                · cases he
      | some i =>
        simp only [hp] at he
        split at he
        · split at he <;> cases he
        · cases he
    | cons =>
      cases hc : s.cons with
      | none =>
        by_cases hx : (removed es).length = m / (c.sizeofElem + 1)
        · have := cons_empty hg h hc hx
          rw [queueStep, this] at he; cases he
        · have := h.rm
          obtain ⟨s'', h1, -, -⟩ := cons_begin hg h hc (by omega)
          rw [queueStep, h1] at he; cases he
      | some r =>
        by_cases hk : r.got.length < c.sizeofElem
        · obtain ⟨s'', h1, -, -⟩ := cons_copy hg h hc hk
          rw [queueStep, h1] at he; cases he
        · by_cases hb : s.cbuf = []
          · obtain ⟨s'', h1, -, h4⟩ := cons_end hg h hc hk hb
            rw [queueStep, h1] at he
            cases he
            have := h.m_div
            omega
          · have := cons_wait (c := c) hc hk hb
            rw [queueStep, this] at he; cases he
    | flushP => cases he
    | flushC => cases he

/-- The steps of the producer until its call returns. -/
def prodLeft (c : QConf) (s : QState) : Nat :=
  match s.prod with
  | none => c.sizeofElem + 2
  | some i => c.sizeofElem - i.k + 1

/-- The steps of the consumer until its call returns. -/
def consLeft (c : QConf) (s : QState) : Nat :=
  match s.cons with
  | none => c.sizeofElem + 2
  | some r => c.sizeofElem - r.got.length + 1

/-- The return of an insertion. -/
def QEvent.isInsert : QEvent → Bool
  | .inserted _ _ _ => true
  | .removed _ _ => false

theorem prod_progress {c : QConf} : ∀ (acts : List QAct) (s s' : QState) (es : List QEvent), queueRun c s acts = ok (s', es) →
    prodLeft c s ≤ (acts.filter fun a => match a with | .prod _ => true | _ => false).length → ∃ e ∈ es, e.isInsert = true
  | [], s, s', es, _, h => by
    exfalso
    simp only [List.filter_nil, List.length_nil] at h
    unfold prodLeft at h
    split at h <;> omega
  | a :: acts, s, s', es, hr, h => by
    rw [queueRun] at hr
    obtain ⟨⟨s1, e⟩, h1, h2⟩ := bind_eq_ok.mp hr
    obtain ⟨⟨s2, es2⟩, h3, h4⟩ := bind_eq_ok.mp h2
    simp only [ok.injEq, Prod.mk.injEq] at h4
    obtain ⟨rfl, rfl⟩ := h4
    have rest : prodLeft c s1 ≤ (acts.filter fun a => match a with | .prod _ => true | _ => false).length →
        ∃ x ∈ e.toList ++ es2, x.isInsert = true := fun hle => by
      obtain ⟨x, hx, hy⟩ := prod_progress acts s1 s2 es2 h3 hle
      exact ⟨x, List.mem_append_right _ hx, hy⟩
    cases a with
    | prod item =>
      simp only [List.filter_cons, if_true, List.length_cons] at h
      simp only [queueStep, prodStep] at h1
      cases hp : s.prod with
      | none =>
        simp only [hp] at h1
        split at h1
        · split at h1
          · cases h1
            apply rest
            simp only [prodLeft, hp] at h ⊢
            omega
          · cases h1
        · cases h1
          exact ⟨_, List.mem_append_left _ (List.mem_singleton.mpr rfl), rfl⟩
      | some i =>
        simp only [hp] at h1
        split at h1
        · split at h1
          · cases h1
            apply rest
            simp only [prodLeft, hp] at h ⊢
            omega
          · cases h1
        · cases h1
          exact ⟨_, List.mem_append_left _ (List.mem_singleton.mpr rfl), rfl⟩
    | cons =>
      apply rest
      have : s1.prod = s.prod := by
        simp only [queueStep, consStep] at h1
        cases hc : s.cons with
        | none => simp only [hc] at h1; split at h1 <;> · cases h1; rfl
        | some r =>
          simp only [hc] at h1
          split at h1
          · obtain ⟨b, -, hb⟩ := bind_eq_ok.mp h1; cases hb; rfl
          · split at h1 <;> · cases h1; rfl
      simp only [prodLeft, this]
      simpa [prodLeft, List.filter_cons] using h
    | flushP =>
      apply rest
      simp only [queueStep, ok.injEq, Prod.mk.injEq] at h1
      have : s1.prod = s.prod := by
        rw [← h1.1]; unfold flushProd; split <;> rfl
      simp only [prodLeft, this]
      simpa [prodLeft, List.filter_cons] using h
    | flushC =>
      apply rest
      simp only [queueStep, ok.injEq, Prod.mk.injEq] at h1
      have : s1.prod = s.prod := by
        rw [← h1.1]; unfold flushCons; split <;> rfl
      simp only [prodLeft, this]
      simpa [prodLeft, List.filter_cons] using h

theorem cons_progress {c : QConf} : ∀ (acts : List QAct) (s s' : QState) (es : List QEvent), s.cbuf = [] → queueRun c s acts = ok (s', es) →
    consLeft c s ≤ (acts.filter fun a => match a with | .cons => true | _ => false).length → ∃ e ∈ es, e.isInsert = false
  | [], s, s', es, _, _, h => by
    exfalso
    simp only [List.filter_nil, List.length_nil] at h
    unfold consLeft at h
    split at h <;> omega
  | a :: acts, s, s', es, hb, hr, h => by
    rw [queueRun] at hr
    obtain ⟨⟨s1, e⟩, h1, h2⟩ := bind_eq_ok.mp hr
    obtain ⟨⟨s2, es2⟩, h3, h4⟩ := bind_eq_ok.mp h2
    simp only [ok.injEq, Prod.mk.injEq] at h4
    obtain ⟨rfl, rfl⟩ := h4
    have rest : s1.cbuf = [] → consLeft c s1 ≤ (acts.filter fun a => match a with | .cons => true | _ => false).length →
        ∃ x ∈ e.toList ++ es2, x.isInsert = false := fun hb' hle => by
      obtain ⟨x, hx, hy⟩ := cons_progress acts s1 s2 es2 hb' h3 hle
      exact ⟨x, List.mem_append_right _ hx, hy⟩
    cases a with
    | cons =>
      simp only [List.filter_cons, if_true, List.length_cons] at h
      simp only [queueStep, consStep] at h1
      cases hc : s.cons with
      | none =>
        simp only [hc] at h1
        split at h1
        · cases h1
          apply rest hb
          simp only [consLeft, hc] at h ⊢
          simp only [List.length_nil]
          omega
        · cases h1
          exact ⟨_, List.mem_append_left _ (List.mem_singleton.mpr rfl), rfl⟩
      | some r =>
        simp only [hc] at h1
        split at h1
        · obtain ⟨b, -, hb'⟩ := bind_eq_ok.mp h1
          cases hb'
          apply rest hb
          simp only [consLeft, hc] at h ⊢
          simp only [List.length_append, List.length_singleton]
          omega
        · cases h1
          exact ⟨_, List.mem_append_left _ (List.mem_singleton.mpr rfl), rfl⟩
    | prod item =>
      have : s1.cons = s.cons ∧ s1.cbuf = s.cbuf := by
        simp only [queueStep, prodStep] at h1
        cases hp : s.prod with
        | none =>
          simp only [hp] at h1
          split at h1
          · split at h1
            · cases h1; exact ⟨rfl, rfl⟩
            · cases h1
          · cases h1; exact ⟨rfl, rfl⟩
        | some i =>
          simp only [hp] at h1
          split at h1
          · split at h1
            · cases h1; exact ⟨rfl, rfl⟩
            · cases h1
          · cases h1; exact ⟨rfl, rfl⟩
      apply rest (by rw [this.2]; exact hb)
      simp only [consLeft, this.1]
      simpa [consLeft, List.filter_cons] using h
    | flushP =>
      simp only [queueStep, ok.injEq, Prod.mk.injEq] at h1
      have : s1.cons = s.cons ∧ s1.cbuf = s.cbuf := by
        rw [← h1.1]; unfold flushProd; split <;> exact ⟨rfl, rfl⟩
      apply rest (by rw [this.2]; exact hb)
      simp only [consLeft, this.1]
      simpa [consLeft, List.filter_cons] using h
    | flushC =>
      simp only [queueStep, ok.injEq, Prod.mk.injEq] at h1
      have : s1.cons = s.cons ∧ s1.cbuf = [] := by
        rw [← h1.1]; unfold flushCons; rw [hb]; exact ⟨rfl, hb⟩
      apply rest this.2
      simp only [consLeft, this.1]
      simpa [consLeft, List.filter_cons] using h

/-- **C82.** Neither side waits for the other: from any state of the queue, `sz + 2` steps of the producer contain the return of an insertion
whatever the consumer does, and `sz + 2` steps of the consumer (whose earlier stores have reached memory) contain the return of a removal
whatever the producer does. -/
theorem C82_wait_free (c : QConf) (s s' : QState) (acts : List QAct) (es : List QEvent) (hr : queueRun c s acts = ok (s', es)) :
    (c.sizeofElem + 2 ≤ (acts.filter fun a => match a with | .prod _ => true | _ => false).length → ∃ e ∈ es, e.isInsert = true) ∧
    (s.cbuf = [] → c.sizeofElem + 2 ≤ (acts.filter fun a => match a with | .cons => true | _ => false).length → ∃ e ∈ es, e.isInsert = false) := by
  constructor
  · intro h
    apply prod_progress acts s s' es hr
    unfold prodLeft
    split <;> omega
  · intro hb h
    apply cons_progress acts s s' es hb hr
    unfold consLeft
    split <;> omega

/-- **C82** (violated for large elements): with 2^17 elements of 2^16 octets the elements 0 and 2^16 have the same place in the storage. -/
theorem C82_wrap_violated : queueInit (2 ^ 17) (2 ^ 16) = some ⟨2 ^ 17, 2 ^ 16⟩ ∧ qOff ⟨2 ^ 17, 2 ^ 16⟩ 0 = qOff ⟨2 ^ 17, 2 ^ 16⟩ (2 ^ 16) := by
  decide +kernel

/-! ## Examples -/

/-- An insertion whose stores reach memory late, a refused one, a removal, and another insertion while the removal is under way. -/
def queueTrace : List QAct :=
  [.prod [1, 2], .prod [], .prod [], .prod [], .flushP, .flushP, .cons, .flushP, .prod [3, 4], .cons, .cons, .prod [5, 6], .cons, .cons, .prod [7, 8],
   .flushC, .prod [9, 9], .prod [], .prod [], .prod [], .flushP, .cons, .flushP, .flushP, .cons, .cons, .cons, .cons]

example : (queueRun ⟨2, 2⟩ (queueStart ⟨2, 2⟩) queueTrace).bind (fun r => ok r.2) =
    ok [.inserted [1, 2] true 0, .removed none 0, .inserted [3, 4] false 0, .inserted [5, 6] false 0, .removed (some [1, 2]) 0,
      .inserted [7, 8] false 0, .inserted [9, 9] true 0, .removed none 0, .removed (some [9, 9]) 0] := by decide +kernel

example : queueInit 2 2 = some ⟨2, 2⟩ := by decide

end Wdns
