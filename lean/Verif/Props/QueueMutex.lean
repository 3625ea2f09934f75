import Verif.Model.QueueMutex
import Verif.Spec.QueueHist
import Verif.Props.Queue

/-!
# C83: the queue with a lock — libmy/my_queue_mutex.c
-/

namespace Wdns
open Outcome Spec

/-- What the holder of the lock is doing, and the calls that count as made: `es`, and the holder's once it has changed the indices. -/
def HoldOK (c : QConf) (data : List UInt8) (es : List QEvent) (R : Nat) (q : List (List UInt8)) : MThread → Prop
  | .idle => False
  | .want _ => False
  | .locked _ => QHist (c.numElems - 1) es q
  | .ins i => QHist (c.numElems - 1) es q ∧ i.head = (R + q.length) % c.numElems ∧ q.length < c.numElems - 1 ∧
      i.space = c.numElems - 1 - q.length ∧ i.k ≤ c.sizeofElem ∧ i.item.length = c.sizeofElem ∧
      ∀ k < i.k, data[(R + q.length) % c.numElems * c.sizeofElem + k]? = some ((i.item[k]?).getD 0)
  | .rem r => QHist (c.numElems - 1) es q ∧ r.tail = R % c.numElems ∧ r.count = q.length ∧ r.got.length ≤ c.sizeofElem ∧
      ∃ x q', q = x :: q' ∧ r.got = x.take r.got.length
  | .leave e => QHist (c.numElems - 1) (es ++ [e]) q

/-- The invariant: the queue holds `q`, whose first item is the `R`-th. -/
structure MInv (c : QConf) (s : MState) (es : List QEvent) (R : Nat) (q : List (List UInt8)) : Prop where
  dlen : s.data.length = c.numElems * c.sizeofElem
  hd : s.head = (R + q.length) % c.numElems
  tl : s.tail = R % c.numElems
  len : q.length ≤ c.numElems - 1
  items : ∀ x ∈ q, x.length = c.sizeofElem
  data : ∀ j < q.length, ∀ k < c.sizeofElem, s.data[(R + j) % c.numElems * c.sizeofElem + k]? = some (octAt q j k)
  excl : ∀ t, s.lock ≠ some t → s.th t = .idle ∨ ∃ op, s.th t = .want op
  sized : ∀ t x, s.th t = .want (.insert x) ∨ s.th t = .locked (.insert x) → x.length = c.sizeofElem
  hold : ∀ t, s.lock = some t → HoldOK c s.data es R q (s.th t)
  free : s.lock = none → QHist (c.numElems - 1) es q

theorem at_self (s : MState) (t : Nat) (x : MThread) : (s.at t x).th t = x := by simp [MState.at]
theorem at_ne (s : MState) {t u : Nat} (x : MThread) (h : u ≠ t) : (s.at t x).th u = s.th u := by simp [MState.at, h]

/-- Two slots of different items do not overlap. -/
theorem slots_apart {c : QConf} (hg : c.Good) {R i j k l : Nat} (hi : i < c.numElems) (hj : j < c.numElems) (hij : i ≠ j)
    (hk : k < c.sizeofElem) (hl : l < c.sizeofElem) :
    (R + i) % c.numElems * c.sizeofElem + k ≠ (R + j) % c.numElems * c.sizeofElem + l := by
  intro he
  have hs : 0 < c.sizeofElem := by omega
  have k1 : k = l := by
    have := congrArg (· % c.sizeofElem) he
    simp only [Nat.mul_comm _ c.sizeofElem, Nat.mul_add_mod, Nat.mod_eq_of_lt hk, Nat.mod_eq_of_lt hl] at this
    exact this
  have k2 : (R + i) % c.numElems = (R + j) % c.numElems := by
    rw [k1] at he
    exact Nat.eq_of_mul_eq_mul_right hs (by omega)
  have e1 := Nat.mod_add_div (R + i) c.numElems
  have e2 := Nat.mod_add_div (R + j) c.numElems
  rw [k2] at e1
  rcases Nat.lt_trichotomy ((R + i) / c.numElems) ((R + j) / c.numElems) with hx | hx | hx
  · have := Nat.mul_le_mul_left c.numElems hx
    rw [Nat.mul_succ] at this
    omega
  · rw [hx] at e1; omega
  · have := Nat.mul_le_mul_left c.numElems hx
    rw [Nat.mul_succ] at this
    omega

theorem minv_start (c : QConf) (hg : c.Good) : MInv c (mutexStart c) [] 0 [] where
  dlen := by simp [mutexStart]
  hd := by simp [mutexStart]
  tl := by simp [mutexStart]
  len := by simp
  items := by simp
  data := by intro j hj; simp at hj
  excl := by intro t _; exact Or.inl rfl
  sized := by intro t x h; simp [mutexStart] at h
  hold := by intro t h; simp [mutexStart] at h
  free := fun _ => .start

theorem minv_crit {c : QConf} {s es R q} (h : MInv c s es R q) {t : Nat} (hl : s.lock = some t) {x : MThread}
    (hx : ∀ op, x ≠ .want op ∧ x ≠ .locked op) {d : List UInt8} {hd tl R' : Nat} {q' : List (List UInt8)}
    (h1 : d.length = c.numElems * c.sizeofElem) (h2 : hd = (R' + q'.length) % c.numElems) (h3 : tl = R' % c.numElems)
    (h4 : q'.length ≤ c.numElems - 1) (h5 : ∀ x ∈ q', x.length = c.sizeofElem)
    (h6 : ∀ j < q'.length, ∀ k < c.sizeofElem, d[(R' + j) % c.numElems * c.sizeofElem + k]? = some (octAt q' j k))
    (h7 : HoldOK c d es R' q' x) : MInv c ⟨d, hd, tl, s.lock, (s.at t x).th⟩ es R' q' := by
  refine ⟨h1, h2, h3, h4, h5, h6, ?_, ?_, ?_, ?_⟩
  · intro u hu
    have hut : u ≠ t := by rintro rfl; exact hu hl
    simp only
    rw [at_ne s x hut]
    exact h.excl u hu
  · intro u y hy
    simp only at hy
    by_cases hut : u = t
    · subst hut
      rw [at_self] at hy
      rcases hy with hy | hy
      · exact absurd hy (hx _).1
      · exact absurd hy (hx _).2
    · rw [at_ne s x hut] at hy
      exact h.sized u y hy
  · intro u hu
    simp only at hu ⊢
    rw [hl, Option.some.injEq] at hu
    subst hu
    rw [at_self]
    exact h7
  · intro hn
    simp only at hn
    rw [hl] at hn; cases hn

/-- Every step keeps the invariant. -/
theorem mstep_inv {c : QConf} (hg : c.Good) {s es R q} (h : MInv c s es R q) (t : Nat) (op : MOp)
    (hop : ∀ x, op = .insert x → x.length = c.sizeofElem) :
    ∃ s' e R' q', mutexStep c s t op = ok (s', e) ∧ MInv c s' (es ++ e.toList.map Prod.snd) R' q' := by
  have hn := hg.ge
  have crit : (∀ op, s.th t ≠ .want op) → s.th t ≠ .idle → s.lock = some t := by
    intro h1 h2
    apply Classical.byContradiction
    intro hc
    rcases h.excl t hc with h3 | ⟨op, h3⟩
    · exact h2 h3
    · exact h1 op h3
  cases hth : s.th t with
  | idle =>
    refine ⟨s.at t (.want op), none, R, q, by simp only [mutexStep, hth], ?_⟩
    have hl : s.lock ≠ some t := by
      intro hl
      have := h.hold t hl
      rw [hth] at this
      exact this
    simp only [Option.toList_none, List.map_nil, List.append_nil]
    refine ⟨h.dlen, h.hd, h.tl, h.len, h.items, h.data, ?_, ?_, ?_, h.free⟩
    · intro u hu
      by_cases hut : u = t
      · subst hut; exact Or.inr ⟨op, at_self _ _ _⟩
      · rw [at_ne _ _ hut]; exact h.excl u hu
    · intro u x hx
      by_cases hut : u = t
      · subst hut
        rw [at_self] at hx
        rcases hx with hx | hx
        · injection hx with hx; exact hop x hx
        · cases hx
      · rw [at_ne _ _ hut] at hx; exact h.sized u x hx
    · intro u hu
      have hut : u ≠ t := by rintro rfl; exact hl hu
      rw [at_ne _ _ hut]
      exact h.hold u hu
  | want op' =>
    cases hl : s.lock with
    | some u =>
      refine ⟨s, none, R, q, by simp only [mutexStep, hth, hl], ?_⟩
      simpa using h
    | none =>
      refine ⟨{ s.at t (.locked op') with lock := some t }, none, R, q, by simp only [mutexStep, hth, hl], ?_⟩
      simp only [Option.toList_none, List.map_nil, List.append_nil]
      refine ⟨h.dlen, h.hd, h.tl, h.len, h.items, h.data, ?_, ?_, ?_, ?_⟩
      · intro u hu
        have hut : u ≠ t := by rintro rfl; exact hu rfl
        show (s.at t _).th u = _ ∨ _
        rw [at_ne _ _ hut]
        exact h.excl u (by rw [hl]; simp)
      · intro u x hx
        by_cases hut : u = t
        · subst hut
          simp only [at_self] at hx
          rcases hx with hx | hx
          · cases hx
          · injection hx with hx
            exact h.sized u x (Or.inl (by rw [hth, hx]))
        · simp only [at_ne _ _ hut] at hx; exact h.sized u x hx
      · intro u hu
        simp only [Option.some.injEq] at hu
        subst hu
        simp only [at_self]
        exact h.free hl
      · intro hx; cases hx
  | locked op' =>
    have hl := crit (by rw [hth]; intro _ hx; cases hx) (by rw [hth]; intro hx; cases hx)
    have hh := h.hold t hl
    rw [hth] at hh
    cases op' with
    | insert item =>
      have hsz := h.sized t item (Or.inr hth)
      have hsp : qSpace s.head s.tail c.numElems = c.numElems - 1 - q.length := by
        have := h.len
        rw [h.hd, h.tl, hg.space (by omega) (by omega)]; omega
      by_cases hfull : q.length = c.numElems - 1
      · refine ⟨⟨s.data, s.head, s.tail, s.lock, (s.at t (.leave (.inserted item false 0))).th⟩, none, R, q, ?_, ?_⟩
        · simp only [mutexStep, hth, hsp, hfull, Nat.sub_self]
          rfl
        · simp only [Option.toList_none, List.map_nil, List.append_nil]
          exact minv_crit h hl (by intro _; exact ⟨by simp, by simp⟩) h.dlen h.hd h.tl h.len h.items h.data (.full hh hfull)
      · have hlt : q.length < c.numElems - 1 := by have := h.len; omega
        refine ⟨⟨s.data, s.head, s.tail, s.lock, (s.at t (.ins ⟨item, s.head, c.numElems - 1 - q.length, 0⟩)).th⟩, none, R, q, ?_, ?_⟩
        · simp only [mutexStep, hth, hsp]
          rw [if_pos (by omega), if_pos hsz]
          rfl
        · simp only [Option.toList_none, List.map_nil, List.append_nil]
          refine minv_crit h hl (by intro _; exact ⟨by simp, by simp⟩) h.dlen h.hd h.tl h.len h.items h.data ?_
          exact ⟨hh, h.hd, hlt, rfl, Nat.zero_le _, hsz, fun k hk => absurd hk (Nat.not_lt_zero _)⟩
    | remove =>
      have hct : qCount s.head s.tail c.numElems = q.length := by
        have := h.len
        rw [h.hd, h.tl, hg.count (by omega) (by omega)]; omega
      cases hq : q with
      | nil =>
        refine ⟨⟨s.data, s.head, s.tail, s.lock, (s.at t (.leave (.removed none 0))).th⟩, none, R, [], ?_, ?_⟩
        · simp only [mutexStep, hth, hct, hq, List.length_nil]
          rfl
        · simp only [Option.toList_none, List.map_nil, List.append_nil]
          rw [hq] at h hh
          exact minv_crit h hl (by intro _; exact ⟨by simp, by simp⟩) h.dlen h.hd h.tl h.len h.items h.data (.empty hh)
      | cons x q' =>
        refine ⟨⟨s.data, s.head, s.tail, s.lock, (s.at t (.rem ⟨s.tail, q.length, []⟩)).th⟩, none, R, q, ?_, ?_⟩
        · simp only [mutexStep, hth, hct]
          rw [if_pos (by rw [hq]; simp)]
          rfl
        · simp only [Option.toList_none, List.map_nil, List.append_nil]
          refine minv_crit h hl (by intro _; exact ⟨by simp, by simp⟩) h.dlen h.hd h.tl h.len h.items h.data ?_
          exact ⟨hh, h.tl, rfl, Nat.zero_le _, x, q', hq, by simp⟩
  | ins i =>
    have hl := crit (by rw [hth]; intro _ hx; cases hx) (by rw [hth]; intro hx; cases hx)
    have hh := h.hold t hl
    rw [hth] at hh
    obtain ⟨p1, p2, p3, p4, p5, p6, p7⟩ := hh
    by_cases hk : i.k < c.sizeofElem
    · have hoff : qOff c i.head = (R + q.length) % c.numElems * c.sizeofElem := by rw [p2, hg.off]
      refine ⟨⟨s.data.set (qOff c i.head + i.k) (i.item.getD i.k 0), s.head, s.tail, s.lock, (s.at t (.ins { i with k := i.k + 1 })).th⟩, none, R, q, ?_, ?_⟩
      · simp only [mutexStep, hth]
        rw [if_pos hk, if_pos]
        · rfl
        · rw [hoff, h.dlen]; exact hg.off_lt _ _ hk
      · simp only [Option.toList_none, List.map_nil, List.append_nil]
        refine minv_crit h hl (by intro _; exact ⟨by simp, by simp⟩) (by rw [List.length_set]; exact h.dlen) h.hd h.tl h.len h.items ?_ ?_
        · intro j hj k hk'
          rw [hoff, List.getElem?_set_ne (slots_apart hg (by omega) (by omega) (by omega) hk hk')]
          exact h.data j hj k hk'
        · refine ⟨p1, p2, p3, p4, hk, p6, ?_⟩
          intro k hk'
          simp only at hk'
          rw [hoff]
          rcases Nat.lt_or_ge k i.k with hlt | hge
          · rw [List.getElem?_set_ne (by omega)]
            exact p7 k hlt
          · have : k = i.k := by omega
            subst this
            rw [List.getElem?_set_self (by rw [h.dlen]; exact hg.off_lt _ _ hk)]
            simp
    · refine ⟨⟨s.data, qNext c i.head, s.tail, s.lock, (s.at t (.leave (.inserted i.item true (i.space - 1)))).th⟩, none, R, q ++ [i.item], ?_, ?_⟩
      · simp only [mutexStep, hth]
        rw [if_neg hk]
        rfl
      · simp only [Option.toList_none, List.map_nil, List.append_nil]
        refine minv_crit h hl (by intro _; exact ⟨by simp, by simp⟩) h.dlen ?_ h.tl (by simp; omega) ?_ ?_ ?_
        · rw [p2, hg.next]; congr 1; simp; omega
        · intro x hx
          rcases List.mem_append.mp hx with hx | hx
          · exact h.items x hx
          · rw [List.mem_singleton.mp hx]; exact p6
        · intro j hj k hk'
          rw [List.length_append, List.length_singleton] at hj
          rcases Nat.lt_or_ge j q.length with hlt | hge
          · rw [octAt_append hlt]; exact h.data j hlt k hk'
          · have : j = q.length := by omega
            subst this
            rw [p7 k (by omega)]
            simp [octAt]
        · show QHist _ _ _
          have := QHist.insert (x := i.item) p1 p3
          rw [p4]
          exact this
  | rem r =>
    have hl := crit (by rw [hth]; intro _ hx; cases hx) (by rw [hth]; intro hx; cases hx)
    have hh := h.hold t hl
    rw [hth] at hh
    obtain ⟨p1, p2, p3, p4, x, q', rfl, p5⟩ := hh
    have hx : x.length = c.sizeofElem := h.items x (by simp)
    by_cases hk : r.got.length < c.sizeofElem
    · have hd := h.data 0 (by simp) r.got.length hk
      have ho : octAt (x :: q') 0 r.got.length = x[r.got.length]'(by omega) := by
        simp [octAt, List.getElem?_eq_getElem (show r.got.length < x.length by omega)]
      rw [ho, Nat.add_zero] at hd
      refine ⟨⟨s.data, s.head, s.tail, s.lock, (s.at t (.rem { r with got := r.got ++ [x[r.got.length]'(by omega)] })).th⟩, none, R, x :: q', ?_, ?_⟩
      · simp only [mutexStep, hth]
        rw [if_pos hk, p2, hg.off, rd, hd]
        rfl
      · simp only [Option.toList_none, List.map_nil, List.append_nil]
        refine minv_crit h hl (by intro _; exact ⟨by simp, by simp⟩) h.dlen h.hd h.tl h.len h.items h.data ?_
        refine ⟨p1, p2, p3, by simp; omega, x, q', rfl, ?_⟩
        simp only [List.length_append, List.length_singleton]
        rw [List.take_add_one, ← p5, List.getElem?_eq_getElem (by omega)]
        rfl
    · have hgot : r.got = x := by rw [p5]; exact List.take_of_length_le (by omega)
      refine ⟨⟨s.data, s.head, qNext c r.tail, s.lock, (s.at t (.leave (.removed (some r.got) (r.count - 1)))).th⟩, none, R + 1, q', ?_, ?_⟩
      · simp only [mutexStep, hth]
        rw [if_neg hk]
        rfl
      · simp only [Option.toList_none, List.map_nil, List.append_nil]
        refine minv_crit h hl (by intro _; exact ⟨by simp, by simp⟩) h.dlen ?_ ?_ ?_ ?_ ?_ ?_
        · rw [h.hd]; congr 1; simp; omega
        · rw [p2, hg.next]
        · have := h.len; simp at this; omega
        · intro y hy; exact h.items y (by simp [hy])
        · intro j hj k hk'
          have := h.data (j + 1) (by simpa using hj) k hk'
          rw [show R + 1 + j = R + (j + 1) by omega, this]
          simp [octAt]
        · show QHist _ _ _
          rw [hgot, p3, List.length_cons, Nat.add_sub_cancel]
          exact QHist.remove p1
  | leave e =>
    have hl := crit (by rw [hth]; intro _ hx; cases hx) (by rw [hth]; intro hx; cases hx)
    have hh := h.hold t hl
    rw [hth] at hh
    refine ⟨{ s.at t .idle with lock := none }, some (t, e), R, q, by simp only [mutexStep, hth], ?_⟩
    refine ⟨h.dlen, h.hd, h.tl, h.len, h.items, h.data, ?_, ?_, ?_, ?_⟩
    · intro u _
      by_cases hut : u = t
      · subst hut; exact Or.inl (at_self _ _ _)
      · show (s.at t _).th u = _ ∨ _
        rw [at_ne _ _ hut]
        exact h.excl u (by rw [hl]; simp; exact fun e => hut e.symm)
    · intro u y hy
      by_cases hut : u = t
      · subst hut; simp only [at_self] at hy; rcases hy with hy | hy <;> cases hy
      · simp only [at_ne _ _ hut] at hy; exact h.sized u y hy
    · intro u hu; cases hu
    · intro _; exact hh

theorem mrun_inv {c : QConf} (hg : c.Good) : ∀ (acts : List (Nat × MOp)) {s es R q}, MInv c s es R q →
    (∀ a ∈ acts, ∀ x, a.2 = .insert x → x.length = c.sizeofElem) →
    ∃ s' es' R' q', mutexRun c s acts = ok (s', es') ∧ MInv c s' (es ++ es'.map Prod.snd) R' q'
  | [], s, es, R, q, h, _ => ⟨s, [], R, q, rfl, by simpa using h⟩
  | a :: acts, s, es, R, q, h, hs => by
    obtain ⟨s1, e, R1, q1, h1, h2⟩ := mstep_inv hg h a.1 a.2 (hs a (by simp))
    obtain ⟨s2, es2, R2, q2, h3, h4⟩ := mrun_inv hg acts h2 fun b hb => hs b (by simp [hb])
    refine ⟨s2, e.toList ++ es2, R2, q2, ?_, ?_⟩
    · rw [mutexRun, h1, ok_bind]
      simp only
      rw [h3, ok_bind]
    · rw [List.map_append, ← List.append_assoc]; exact h4

/-- **C83.** Any number of threads, every schedule: no access outside the storage, and the calls, in the order in which they release the lock,
return exactly what the calls of a queue of capacity `n - 1` made one after another return (so also the reported space and count).
The one exception is the call that has changed the queue and not yet released the lock. -/
theorem C83_linearizable (n sz : Nat) (c : QConf) (hi : queueInit n sz = some c) (h1 : n < 2 ^ 32) (h2 : (n - 1) * sz < 2 ^ 32)
    (acts : List (Nat × MOp)) (hs : ∀ a ∈ acts, ∀ x, a.2 = .insert x → x.length = sz) :
    ∃ s es, mutexRun c (mutexStart c) acts = ok (s, es) ∧ ∃ q,
      (QHist (n - 1) (es.map Prod.snd) q ∨ ∃ t e, s.lock = some t ∧ s.th t = .leave e ∧ QHist (n - 1) (es.map Prod.snd ++ [e]) q) := by
  obtain ⟨hg, hn, hsz⟩ := good_of_init hi h1 h2
  obtain ⟨s, es, R, q, h3, h4⟩ := mrun_inv hg acts (minv_start c hg) (by rw [hsz]; exact hs)
  simp only [List.nil_append] at h4
  refine ⟨s, es, h3, q, ?_⟩
  rw [← hn]
  cases hl : s.lock with
  | none => exact Or.inl (h4.free hl)
  | some t =>
    have := h4.hold t hl
    cases hth : s.th t with
    | idle => rw [hth] at this; exact this.elim
    | want => rw [hth] at this; exact this.elim
    | locked => rw [hth] at this; exact Or.inl this
    | ins => rw [hth] at this; exact Or.inl this.1
    | rem => rw [hth] at this; exact Or.inl this.1
    | leave e => rw [hth] at this; exact Or.inr ⟨t, e, rfl, hth, this⟩

/-- The items that have left a queue are a prefix of those that entered it. -/
theorem qhist_fifo {cap : Nat} {es : List QEvent} {q : List (List UInt8)} (h : QHist cap es q) :
    inserted es = removed es ++ q ∧ q.length ≤ cap := by
  induction h with
  | start => simp [inserted, removed]
  | insert _ h2 ih => rw [inserted_append, removed_append, ih.1]; simp [inserted, removed]; omega
  | full _ h2 ih => rw [inserted_append, removed_append, ih.1]; simp [inserted, removed]; omega
  | remove _ ih => rw [inserted_append, removed_append, ih.1]; simp [inserted, removed]; have := ih.2; simp at this; omega
  | empty _ ih => rw [inserted_append, removed_append, ih.1]; simp [inserted, removed]

/-- A call whose thread is inside is one of that thread: the events of a thread alternate with its calls (`mutexStep` makes the event from
the thread's own arguments).  Here: an insertion reports the item that was passed to it. -/
theorem C83_own_item (c : QConf) (s s' : MState) (t u : Nat) (op : MOp) (e : QEvent)
    (h : mutexStep c s t op = ok (s', some (u, e))) : u = t ∧ s.th t = .leave e ∧ s'.lock = none ∧ s'.th t = .idle := by
  unfold mutexStep at h
  split at h
  · cases h
  · split at h <;> cases h
  · dsimp only at h
    split at h
    · split at h <;> cases h
    · cases h
  · dsimp only at h
    split at h <;> cases h
  · split at h
    · split at h <;> cases h
    · cases h
  · split at h
    · obtain ⟨b, -, hb⟩ := bind_eq_ok.mp h; cases hb
    · cases h
  · rename_i e' heq
    cases h
    exact ⟨rfl, heq, rfl, at_self _ _ _⟩

/-! ## Progress -/

/-- The steps the holder of the lock needs until it releases it. -/
def critLeft (c : QConf) : MThread → Nat
  | .idle => 0
  | .want _ => 0
  | .locked _ => c.sizeofElem + 3
  | .ins i => c.sizeofElem - i.k + 2
  | .rem r => c.sizeofElem - r.got.length + 2
  | .leave _ => 1

/-- **C83.** No deadlock: in every reachable state the holder of the lock is inside a call, can always act, and has released the lock after
`sz + 3` steps of its own at the latest, whatever the other threads do. -/
theorem C83_progress (n sz : Nat) (c : QConf) (hi : queueInit n sz = some c) (h1 : n < 2 ^ 32) (h2 : (n - 1) * sz < 2 ^ 32)
    (acts : List (Nat × MOp)) (hs : ∀ a ∈ acts, ∀ x, a.2 = .insert x → x.length = sz) (s : MState) (es : List (Nat × QEvent))
    (hr : mutexRun c (mutexStart c) acts = ok (s, es)) (t : Nat) (hl : s.lock = some t) :
    0 < critLeft c (s.th t) ∧ critLeft c (s.th t) ≤ sz + 3 ∧
    ∀ u op, (∀ x, op = .insert x → x.length = sz) → ∃ s' e, mutexStep c s u op = ok (s', e) ∧
      (u ≠ t → s'.lock = some t ∧ s'.th t = s.th t) ∧
      (u = t → (s'.lock = none ∧ critLeft c (s.th t) = 1) ∨ (s'.lock = some t ∧ critLeft c (s'.th t) < critLeft c (s.th t))) := by
  obtain ⟨hg, hn, hsz⟩ := good_of_init hi h1 h2
  obtain ⟨s0, es0, R, q, h3, h⟩ := mrun_inv hg acts (minv_start c hg) (by rw [hsz]; exact hs)
  rw [hr, ok.injEq, Prod.mk.injEq] at h3
  obtain ⟨rfl, rfl⟩ := h3
  simp only [List.nil_append] at h
  have hh := h.hold t hl
  refine ⟨?_, ?_, ?_⟩
  · cases hth : s.th t <;> rw [hth] at hh <;> first | exact hh.elim | (simp [critLeft])
  · rw [← hsz]; cases hth : s.th t <;> simp only [critLeft] <;> omega
  · intro u op hop
    obtain ⟨s', e, R', q', h5, h6⟩ := mstep_inv hg h u op (by rw [hsz]; exact hop)
    refine ⟨s', e, h5, ?_, ?_⟩
    · intro hut
      have hne : t ≠ u := fun e => hut e.symm
      rcases h.excl u (by rw [hl]; simp; exact hne) with hx | ⟨op', hx⟩
      · simp only [mutexStep, hx, ok.injEq, Prod.mk.injEq] at h5
        rw [← h5.1]
        exact ⟨hl, at_ne _ _ hne⟩
      · simp only [mutexStep, hx, hl, ok.injEq, Prod.mk.injEq] at h5
        rw [← h5.1]
        exact ⟨hl, rfl⟩
    · rintro rfl
      cases hth : s.th u with
      | idle => rw [hth] at hh; exact hh.elim
      | want => rw [hth] at hh; exact hh.elim
      | locked op' =>
        right
        cases op' with
        | insert item =>
          simp only [mutexStep, hth] at h5
          split at h5
          · split at h5
            · cases h5; exact ⟨hl, by rw [at_self]; simp [critLeft]⟩
            · cases h5
          · cases h5; exact ⟨hl, by rw [at_self]; simp [critLeft]⟩
        | remove =>
          simp only [mutexStep, hth] at h5
          split at h5 <;> · cases h5; exact ⟨hl, by rw [at_self]; simp [critLeft]⟩
      | ins i =>
        right
        simp only [mutexStep, hth] at h5
        split at h5
        · split at h5
          · cases h5; exact ⟨hl, by simp only [at_self]; simp only [critLeft]; omega⟩
          · cases h5
        · cases h5; exact ⟨hl, by simp only [at_self]; simp [critLeft]⟩
      | rem r =>
        right
        simp only [mutexStep, hth] at h5
        split at h5
        · obtain ⟨b, -, hb⟩ := bind_eq_ok.mp h5
          cases hb; exact ⟨hl, by simp only [at_self]; simp only [critLeft, List.length_append, List.length_singleton]; omega⟩
        · cases h5; exact ⟨hl, by simp only [at_self]; simp [critLeft]⟩
      | leave e' =>
        left
        simp only [mutexStep, hth, ok.injEq, Prod.mk.injEq] at h5
        rw [← h5.1]
        exact ⟨rfl, rfl⟩

/-! ## Examples -/

/-- Three threads: two insertions and a removal, the second insertion waiting for the lock. -/
def mutexTrace : List (Nat × MOp) :=
  [(0, .insert [1]), (1, .insert [2]), (0, .remove), (1, .remove), (0, .remove), (2, .remove), (0, .remove), (0, .remove), (1, .remove), (0, .remove),
   (2, .remove), (2, .remove), (2, .remove), (1, .remove), (2, .remove), (2, .remove), (1, .remove), (1, .remove), (1, .remove), (1, .remove), (1, .remove)]

example : (mutexRun ⟨2, 1⟩ (mutexStart ⟨2, 1⟩) mutexTrace).bind (fun r => ok r.2) =
    ok [(0, .inserted [1] true 0), (2, .removed (some [1]) 0), (1, .inserted [2] true 0)] := by decide +kernel

/-- A case of the hypotheses of `C83_linearizable`. -/
example : queueInit 2 1 = some ⟨2, 1⟩ ∧ ∀ a ∈ mutexTrace, ∀ x, a.2 = .insert x → x.length = 1 := by
  refine ⟨by decide, fun a ha x hx => ?_⟩
  simp only [mutexTrace, List.mem_cons, List.not_mem_nil, or_false] at ha
  rcases ha with rfl | rfl | rfl | rfl | rfl | rfl | rfl | rfl | rfl | rfl | rfl | rfl | rfl | rfl | rfl | rfl | rfl | rfl | rfl | rfl | rfl <;> cases hx <;> rfl

end Wdns
