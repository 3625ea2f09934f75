import Verif.Spec.Queue

/-!
# Lemmas: the invariant of the queue of libmy/my_queue_mb.c
-/

namespace Wdns
open Outcome Spec

/-- What `my_queue_mb_init` was given: a power of two, and elements so small that no index wraps in 32 bits. -/
structure QConf.Good (c : QConf) : Prop where
  pow : ∃ e, c.numElems = 2 ^ e
  ge : 2 ≤ c.numElems
  lt : c.numElems < 2 ^ 32
  fits : (c.numElems - 1) * c.sizeofElem < 2 ^ 32

theorem QConf.Good.and {c : QConf} (h : c.Good) (x : Nat) : x &&& (c.numElems - 1) = x % c.numElems := by
  obtain ⟨e, he⟩ := h.pow
  rw [he]; exact Nat.and_two_pow_sub_one_eq_mod x e

theorem QConf.Good.dvd {c : QConf} (h : c.Good) : ∃ q, 2 ^ 32 = c.numElems * q := by
  obtain ⟨e, he⟩ := h.pow
  have hlt := h.lt
  rw [he] at hlt ⊢
  have : e ≤ 32 := by
    apply Nat.le_of_lt; exact (Nat.pow_lt_pow_iff_right (by decide)).mp hlt
  exact ⟨2 ^ (32 - e), by rw [← Nat.pow_add]; congr 1; omega⟩

theorem QConf.Good.next {c : QConf} (h : c.Good) (x : Nat) : qNext c (x % c.numElems) = (x + 1) % c.numElems := by
  rw [qNext, h.and, Nat.mod_add_mod]

theorem QConf.Good.off {c : QConf} (h : c.Good) (x : Nat) : qOff c (x % c.numElems) = x % c.numElems * c.sizeofElem := by
  have h1 : x % c.numElems ≤ c.numElems - 1 := by have := Nat.mod_lt x (show 0 < c.numElems by have := h.ge; omega); omega
  exact Nat.mod_eq_of_lt (Nat.lt_of_le_of_lt (Nat.mul_le_mul_right _ h1) h.fits)

theorem QConf.Good.off_lt {c : QConf} (h : c.Good) (x k : Nat) (hk : k < c.sizeofElem) :
    x % c.numElems * c.sizeofElem + k < c.numElems * c.sizeofElem := by
  have h1 : x % c.numElems + 1 ≤ c.numElems := Nat.mod_lt x (by have := h.ge; omega)
  have := Nat.mul_le_mul_right c.sizeofElem h1
  rw [Nat.add_mul, Nat.one_mul] at this
  omega

/-- The number of free places, from the two indices. -/
theorem QConf.Good.space {c : QConf} (h : c.Good) {P V : Nat} (h1 : V ≤ P) (h2 : P ≤ V + (c.numElems - 1)) :
    qSpace (P % c.numElems) (V % c.numElems) c.numElems = V + (c.numElems - 1) - P := by
  have hn := h.ge
  have hlt := h.lt
  obtain ⟨q, hq⟩ := h.dvd
  rw [qSpace, h.and]
  have hp := Nat.mod_lt P (show 0 < c.numElems by omega)
  have hv := Nat.mod_lt V (show 0 < c.numElems by omega)
  have eP := Nat.mod_add_div P c.numElems
  have eV := Nat.mod_add_div V c.numElems
  have hab : V / c.numElems ≤ P / c.numElems := Nat.div_le_div_right h1
  generalize hn' : c.numElems = n at *
  rw [Nat.mod_mod_of_dvd _ ⟨q, hq⟩]
  have hq1 : 1 ≤ q := by
    rcases Nat.eq_zero_or_pos q with rfl | hpos
    · rw [Nat.mul_zero] at hq; exact absurd hq (by decide)
    · exact hpos
  obtain ⟨a, ha⟩ : ∃ a, a = V / n := ⟨_, rfl⟩
  obtain ⟨b, hb⟩ : ∃ b, b = P / n := ⟨_, rfl⟩
  rw [← ha, ← hb] at hab
  rw [← ha] at eV
  rw [← hb] at eP
  obtain ⟨d, rfl⟩ : ∃ d, b = a + d := ⟨b - a, by omega⟩
  obtain ⟨r, rfl⟩ : ∃ r, q = r + 1 := ⟨q - 1, by omega⟩
  have key : V % n + 2 ^ 32 - (P % n + 1) = n * (r + d) + (V + (n - 1) - P) := by
    rw [hq]
    simp only [Nat.mul_add, Nat.mul_one] at eP ⊢
    omega
  rw [key, Nat.mul_add_mod, Nat.mod_eq_of_lt (by omega)]

/-- The number of items, from the two indices. -/
theorem QConf.Good.count {c : QConf} (h : c.Good) {H R : Nat} (h1 : R ≤ H) (h2 : H ≤ R + (c.numElems - 1)) :
    qCount (H % c.numElems) (R % c.numElems) c.numElems = H - R := by
  have hn := h.ge
  obtain ⟨q, hq⟩ := h.dvd
  rw [qCount, h.and]
  have hp := Nat.mod_lt H (show 0 < c.numElems by omega)
  have hv := Nat.mod_lt R (show 0 < c.numElems by omega)
  have eP := Nat.mod_add_div H c.numElems
  have eV := Nat.mod_add_div R c.numElems
  have hab : R / c.numElems ≤ H / c.numElems := Nat.div_le_div_right h1
  have hlt := h.lt
  generalize hn' : c.numElems = n at *
  rw [Nat.mod_mod_of_dvd _ ⟨q, hq⟩]
  have hq1 : 1 ≤ q := by
    rcases Nat.eq_zero_or_pos q with rfl | hpos
    · rw [Nat.mul_zero] at hq; exact absurd hq (by decide)
    · exact hpos
  obtain ⟨a, ha⟩ : ∃ a, a = R / n := ⟨_, rfl⟩
  obtain ⟨b, hb⟩ : ∃ b, b = H / n := ⟨_, rfl⟩
  rw [← ha, ← hb] at hab
  rw [← ha] at eV
  rw [← hb] at eP
  obtain ⟨d, rfl⟩ : ∃ d, b = a + d := ⟨b - a, by omega⟩
  -- `H % n + 2^32 - R % n = n * (q - d) + (H - R)`, and `d ≤ 1 ≤ q`
  have hd : d ≤ 1 := by
    rcases Nat.lt_or_ge 1 d with hlt | hge
    · exfalso
      have : n * (a + 2) ≤ n * (a + d) := Nat.mul_le_mul_left n (by omega)
      simp only [Nat.mul_add] at this eP
      omega
    · exact hge
  obtain ⟨r, rfl⟩ : ∃ r, q = r + d := ⟨q - d, by omega⟩
  have key : H % n + 2 ^ 32 - R % n = n * r + (H - R) := by
    rw [hq]
    simp only [Nat.mul_add] at eP ⊢
    omega
  rw [key, Nat.mul_add_mod, Nat.mod_eq_of_lt (by omega)]

/-! ## The stores of the producer, numbered -/

/-- The `k`-th octet of the `j`-th item. -/
def octAt (all : List (List UInt8)) (j k : Nat) : UInt8 := ((all[j]?.getD [])[k]?).getD 0

/-- The `t`-th store of the producer: each item takes `sizeofElem` stores to `data` and one to `head`. -/
def qStore (c : QConf) (all : List (List UInt8)) (t : Nat) : QStore :=
  if t % (c.sizeofElem + 1) < c.sizeofElem then
    .data (t / (c.sizeofElem + 1) % c.numElems * c.sizeofElem + t % (c.sizeofElem + 1)) (octAt all (t / (c.sizeofElem + 1)) (t % (c.sizeofElem + 1)))
  else .head ((t / (c.sizeofElem + 1) + 1) % c.numElems)

/-- The item that is being inserted. -/
def curItem (s : QState) : List (List UInt8) := (s.prod.map QIns.item).toList

/-- The number of octets of it already stored. -/
def curK (s : QState) : Nat := (s.prod.map QIns.k).getD 0

/-- The invariant.  `m` stores of the producer are in memory, `V` stores of the consumer. -/
structure QInv (c : QConf) (s : QState) (ins outs : List (List UInt8)) (m V : Nat) : Prop where
  le : m ≤ ins.length * (c.sizeofElem + 1) + curK s
  pbuf : s.pbuf = (List.range' m (ins.length * (c.sizeofElem + 1) + curK s - m)).map (qStore c (ins ++ curItem s))
  items : ∀ x ∈ ins ++ curItem s, x.length = c.sizeofElem
  dlen : s.data.length = c.numElems * c.sizeofElem
  head : s.head = m / (c.sizeofElem + 1) % c.numElems
  data : ∀ t < m, t % (c.sizeofElem + 1) < c.sizeofElem → m ≤ t + c.numElems * (c.sizeofElem + 1) →
    s.data[t / (c.sizeofElem + 1) % c.numElems * c.sizeofElem + t % (c.sizeofElem + 1)]? =
      some (octAt (ins ++ curItem s) (t / (c.sizeofElem + 1)) (t % (c.sizeofElem + 1)))
  tail : s.tail = V % c.numElems
  cbuf : (V = outs.length ∧ s.cbuf = []) ∨ (V + 1 = outs.length ∧ s.cbuf = [outs.length % c.numElems])
  rm : outs.length ≤ m / (c.sizeofElem + 1)
  bound : ins.length ≤ V + (c.numElems - 1)
  prod : ∀ i, s.prod = some i → i.head = ins.length % c.numElems ∧ 1 ≤ i.space ∧ ins.length + i.space ≤ V + (c.numElems - 1) ∧
    i.k ≤ c.sizeofElem
  cons : ∀ r, s.cons = some r → r.tail = outs.length % c.numElems ∧ 1 ≤ r.count ∧ outs.length + r.count ≤ m / (c.sizeofElem + 1) ∧
    r.got.length ≤ c.sizeofElem ∧ ∃ x, ins[outs.length]? = some x ∧ r.got = x.take r.got.length
  outs : outs = ins.take outs.length

theorem curK_le {c : QConf} {s ins outs m V} (h : QInv c s ins outs m V) : curK s ≤ c.sizeofElem := by
  unfold curK
  cases hp : s.prod with
  | none => simp
  | some i => exact (h.prod i hp).2.2.2

theorem div_of {w P k : Nat} (hk : k < w) : (P * w + k) / w = P ∧ (P * w + k) % w = k := by
  constructor
  · rw [Nat.mul_comm, Nat.mul_add_div (by omega), Nat.div_eq_of_lt hk]; rfl
  · rw [Nat.mul_comm, Nat.mul_add_mod, Nat.mod_eq_of_lt hk]

theorem QInv.m_div {c : QConf} {s ins outs m V} (h : QInv c s ins outs m V) : m / (c.sizeofElem + 1) ≤ ins.length := by
  have := Nat.div_le_div_right (c := c.sizeofElem + 1) h.le
  rwa [(div_of (by have := curK_le h; omega)).1] at this

theorem QInv.V_le {c : QConf} {s ins outs m V} (h : QInv c s ins outs m V) : V ≤ outs.length := by
  rcases h.cbuf with ⟨h, -⟩ | ⟨h, -⟩ <;> omega

theorem octAt_append {a b : List (List UInt8)} {j k : Nat} (h : j < a.length) : octAt (a ++ b) j k = octAt a j k := by
  unfold octAt; rw [List.getElem?_append_left h]

theorem qStore_append {c : QConf} {a b : List (List UInt8)} {t : Nat} (h : t < a.length * (c.sizeofElem + 1)) :
    qStore c (a ++ b) t = qStore c a t := by
  have : t / (c.sizeofElem + 1) < a.length := (Nat.div_lt_iff_lt_mul (by omega)).mpr h
  unfold qStore
  rw [octAt_append this]

theorem range_succ (m T : Nat) (h : m ≤ T) : List.range' m (T + 1 - m) = List.range' m (T - m) ++ [T] := by
  rw [show T + 1 - m = (T - m) + 1 by omega, List.range'_concat]
  congr 2; omega

theorem QInv.start (c : QConf) (h : c.Good) : QInv c (queueStart c) [] [] 0 0 where
  le := by simp
  pbuf := by simp [queueStart, curK]
  items := by simp [queueStart, curItem]
  dlen := by simp [queueStart]
  head := by simp [queueStart]
  data := by intro t h; omega
  tail := by simp [queueStart]
  cbuf := Or.inl ⟨rfl, rfl⟩
  rm := by simp
  bound := by simp
  prod := by intro i hi; cases hi
  cons := by intro i hi; cases hi
  outs := rfl

/-- The producer reads its own index. -/
theorem QInv.ownHead {c : QConf} {s ins outs m V} (h : QInv c s ins outs m V) (hp : s.prod = none) :
    ownHead s = ins.length % c.numElems := by
  have hk : curK s = 0 := by simp [curK, hp]
  have hpb := h.pbuf
  have hle := h.le
  rw [hk] at hpb hle
  simp only [Nat.add_zero] at hpb hle
  unfold Wdns.ownHead
  rcases Nat.lt_or_ge m (ins.length * (c.sizeofElem + 1)) with hlt | hge
  · obtain ⟨T, hT⟩ : ∃ T, ins.length * (c.sizeofElem + 1) = T + 1 := ⟨ins.length * (c.sizeofElem + 1) - 1, by omega⟩
    rw [hT, range_succ _ _ (by omega)] at hpb
    obtain ⟨p, hP⟩ : ∃ p, ins.length = p + 1 := ⟨ins.length - 1, by
      rcases Nat.eq_zero_or_pos ins.length with h0 | h0
      · rw [h0] at hT; omega
      · omega⟩
    have hT' : T = p * (c.sizeofElem + 1) + c.sizeofElem := by
      rw [hP, Nat.add_mul, Nat.one_mul] at hT; omega
    have hst : qStore c (ins ++ curItem s) T = .head (ins.length % c.numElems) := by
      unfold qStore
      rw [hT', (div_of (Nat.lt_succ_self _)).1, (div_of (Nat.lt_succ_self _)).2, if_neg (Nat.lt_irrefl _), hP]
    rw [hpb, List.map_append, List.filterMap_append]
    simp [hst, QStore.headVal]
  · have : m = ins.length * (c.sizeofElem + 1) := by omega
    rw [hpb, h.head, this, Nat.sub_self, Nat.mul_div_cancel _ (Nat.succ_pos _)]
    simp

/-- The consumer reads its own index. -/
theorem QInv.ownTail {c : QConf} {s ins outs m V} (h : QInv c s ins outs m V) : ownTail s = outs.length % c.numElems := by
  unfold Wdns.ownTail
  rcases h.cbuf with ⟨h1, h2⟩ | ⟨h1, h2⟩
  · rw [h2, h.tail, h1]; rfl
  · rw [h2]; rfl

/-! ## The steps -/

/-- The producer finds the queue full. -/
theorem prod_full {c : QConf} (hg : c.Good) {s ins outs m V} (h : QInv c s ins outs m V) (hp : s.prod = none) (item : List UInt8)
    (hfull : ins.length = V + (c.numElems - 1)) : prodStep c s item = ok (s, some (.inserted item false 0)) := by
  have hVP : V ≤ ins.length := by omega
  have e0 : V + (c.numElems - 1) - ins.length = 0 := by omega
  simp only [prodStep, hp, h.ownHead hp, h.tail, hg.space hVP h.bound, e0]
  rw [if_neg (by omega)]

/-- The producer begins to insert. -/
theorem prod_begin {c : QConf} (hg : c.Good) {s ins outs m V} (h : QInv c s ins outs m V) (hp : s.prod = none) (item : List UInt8)
    (hl : item.length = c.sizeofElem) (hfree : ins.length < V + (c.numElems - 1)) :
    ∃ s', prodStep c s item = ok (s', none) ∧ QInv c s' ins outs m V ∧ s'.cbuf = s.cbuf := by
  have hVP : V ≤ ins.length := by have := h.V_le; have := h.rm; have := h.m_div; omega
  have hk : curK s = 0 := by simp [curK, hp]
  have hc : curItem s = [] := by simp [curItem, hp]
  refine ⟨{ s with prod := some ⟨item, ins.length % c.numElems, V + (c.numElems - 1) - ins.length, 0⟩ }, ?_, ?_, rfl⟩
  · simp only [prodStep, hp, h.ownHead hp, h.tail, hg.space hVP h.bound]
    rw [if_pos (by omega), if_pos hl]
  · have hle := h.le
    have hpb := h.pbuf
    have hit := h.items
    have hda := h.data
    rw [hk, Nat.add_zero] at hle hpb
    rw [hc, List.append_nil] at hpb hit hda
    have e1 : curK { s with prod := some (⟨item, ins.length % c.numElems, V + (c.numElems - 1) - ins.length, 0⟩ : QIns) } = 0 := rfl
    have e2 : curItem { s with prod := some (⟨item, ins.length % c.numElems, V + (c.numElems - 1) - ins.length, 0⟩ : QIns) } = [item] := rfl
    constructor
    · rw [e1]; exact hle
    · rw [e1, e2, Nat.add_zero, hpb]
      apply List.map_congr_left
      intro t ht
      have := (List.mem_range'_1.mp ht).2
      exact (qStore_append (by omega)).symm
    · rw [e2]
      intro x hx
      rcases List.mem_append.mp hx with hx | hx
      · exact hit x hx
      · rw [List.mem_singleton.mp hx]; exact hl
    · exact h.dlen
    · exact h.head
    · rw [e2]
      intro t ht1 ht2 ht3
      rw [octAt_append ((Nat.div_lt_iff_lt_mul (by omega)).mpr (by omega))]
      exact hda t ht1 ht2 ht3
    · exact h.tail
    · exact h.cbuf
    · exact h.rm
    · exact h.bound
    · intro i hi
      cases hi
      exact ⟨rfl, by simp only; omega, by simp only; omega, Nat.zero_le _⟩
    · exact h.cons
    · exact h.outs

/-- The producer copies an octet. -/
theorem prod_copy {c : QConf} (hg : c.Good) {s ins outs m V} (h : QInv c s ins outs m V) {i : QIns} (hp : s.prod = some i) (item : List UInt8)
    (hk : i.k < c.sizeofElem) : ∃ s', prodStep c s item = ok (s', none) ∧ QInv c s' ins outs m V ∧ s'.cbuf = s.cbuf := by
  obtain ⟨p1, p2, p3, p4⟩ := h.prod i hp
  have hK : curK s = i.k := by simp [curK, hp]
  have hC : curItem s = [i.item] := by simp [curItem, hp]
  have hle := h.le
  have hpb := h.pbuf
  have hit := h.items
  have hda := h.data
  rw [hK] at hle hpb
  rw [hC] at hpb hit hda
  refine ⟨{ s with pbuf := s.pbuf ++ [.data (qOff c i.head + i.k) (i.item.getD i.k 0)], prod := some { i with k := i.k + 1 } }, ?_, ?_, rfl⟩
  · simp only [prodStep, hp]
    rw [if_pos hk, if_pos]
    rw [p1, hg.off, h.dlen]
    exact hg.off_lt _ _ hk
  · constructor
    · show m ≤ ins.length * (c.sizeofElem + 1) + (i.k + 1)
      omega
    · show s.pbuf ++ _ = (List.range' m (ins.length * (c.sizeofElem + 1) + (i.k + 1) - m)).map (qStore c (ins ++ [i.item]))
      rw [← Nat.add_assoc, range_succ _ _ hle, List.map_append, ← hpb]
      congr 1
      simp only [List.map_cons, List.map_nil, qStore]
      rw [(div_of (Nat.lt_succ_of_lt hk)).1, (div_of (Nat.lt_succ_of_lt hk)).2, if_pos hk, p1, hg.off]
      simp [octAt]
    · exact hit
    · exact h.dlen
    · exact h.head
    · exact hda
    · exact h.tail
    · exact h.cbuf
    · exact h.rm
    · exact h.bound
    · intro j hj
      cases hj
      exact ⟨p1, p2, p3, hk⟩
    · exact h.cons
    · exact h.outs

/-- The producer stores the index and returns. -/
theorem prod_end {c : QConf} (hg : c.Good) {s ins outs m V} (h : QInv c s ins outs m V) {i : QIns} (hp : s.prod = some i) (item : List UInt8)
    (hk : ¬ i.k < c.sizeofElem) : ∃ s', prodStep c s item = ok (s', some (.inserted i.item true (i.space - 1))) ∧
      QInv c s' (ins ++ [i.item]) outs m V ∧ s'.cbuf = s.cbuf ∧ ins.length + 1 + (i.space - 1) ≤ V + (c.numElems - 1) := by
  obtain ⟨p1, p2, p3, p4⟩ := h.prod i hp
  have hK : curK s = i.k := by simp [curK, hp]
  have hC : curItem s = [i.item] := by simp [curItem, hp]
  have hle := h.le
  have hpb := h.pbuf
  have hit := h.items
  have hda := h.data
  rw [hK, show i.k = c.sizeofElem by omega] at hle hpb
  rw [hC] at hpb hit hda
  refine ⟨{ s with pbuf := s.pbuf ++ [.head (qNext c i.head)], prod := none }, ?_, ?_, rfl, by omega⟩
  · simp only [prodStep, hp]
    rw [if_neg hk]
  · have e1 : curK { s with pbuf := s.pbuf ++ [.head (qNext c i.head)], prod := none } = 0 := rfl
    have e2 : curItem { s with pbuf := s.pbuf ++ [.head (qNext c i.head)], prod := none } = [] := rfl
    have eT : (ins ++ [i.item]).length * (c.sizeofElem + 1) = ins.length * (c.sizeofElem + 1) + c.sizeofElem + 1 := by
      rw [List.length_append, List.length_singleton, Nat.add_mul, Nat.one_mul, Nat.add_assoc]
    constructor
    · rw [e1, eT]; omega
    · rw [e1, e2, Nat.add_zero, eT, range_succ _ _ hle, List.map_append, List.append_nil]
      show s.pbuf ++ _ = _
      rw [← hpb]
      congr 1
      simp only [List.map_cons, List.map_nil, qStore]
      rw [(div_of (Nat.lt_succ_self _)).1, (div_of (Nat.lt_succ_self _)).2, if_neg (Nat.lt_irrefl _), p1, hg.next]
    · rw [e2, List.append_nil]; exact hit
    · exact h.dlen
    · exact h.head
    · rw [e2, List.append_nil]; exact hda
    · exact h.tail
    · exact h.cbuf
    · exact h.rm
    · rw [List.length_append, List.length_singleton]; omega
    · intro j hj; cases hj
    · intro r hr
      obtain ⟨c1, c2, c3, c4, x, c5, c6⟩ := h.cons r hr
      refine ⟨c1, c2, c3, c4, x, ?_, c6⟩
      rw [List.getElem?_append_left]
      · exact c5
      · exact (List.getElem?_eq_some_iff.mp c5).1
    · rw [List.take_append_of_le_length (by have := h.rm; have := h.m_div; omega)]
      exact h.outs

/-- A store of the producer reaches memory. -/
theorem flush_prod {c : QConf} (hg : c.Good) {s ins outs m V} (h : QInv c s ins outs m V) :
    ∃ m', QInv c (flushProd s) ins outs m' V ∧ (flushProd s).cbuf = s.cbuf := by
  have hn := hg.ge
  rcases Nat.lt_or_ge m (ins.length * (c.sizeofElem + 1) + curK s) with hlt | hge
  · have hpb := h.pbuf
    obtain ⟨j, hj⟩ : ∃ j, ins.length * (c.sizeofElem + 1) + curK s - m = j + 1 :=
      ⟨ins.length * (c.sizeofElem + 1) + curK s - m - 1, by omega⟩
    have hj' : j = ins.length * (c.sizeofElem + 1) + curK s - (m + 1) := by omega
    rw [hj, List.range'_succ, List.map_cons, hj'] at hpb
    have hw : 0 < c.sizeofElem + 1 := by omega
    have em := Nat.mod_add_div m (c.sizeofElem + 1)
    have hmm := Nat.mod_lt m hw
    refine ⟨m + 1, ?_⟩
    by_cases hk : m % (c.sizeofElem + 1) < c.sizeofElem
    · have hst : qStore c (ins ++ curItem s) m = .data (m / (c.sizeofElem + 1) % c.numElems * c.sizeofElem + m % (c.sizeofElem + 1))
          (octAt (ins ++ curItem s) (m / (c.sizeofElem + 1)) (m % (c.sizeofElem + 1))) := by unfold qStore; rw [if_pos hk]
      rw [hst] at hpb
      have hdiv : (m + 1) / (c.sizeofElem + 1) = m / (c.sizeofElem + 1) := by
        conv => lhs; rw [← em, Nat.add_right_comm, Nat.add_mul_div_left _ _ hw, Nat.div_eq_of_lt (by omega : m % (c.sizeofElem + 1) + 1 < _)]
        omega
      have hfl : flushProd s = { s with
          data := s.data.set (m / (c.sizeofElem + 1) % c.numElems * c.sizeofElem + m % (c.sizeofElem + 1))
            (octAt (ins ++ curItem s) (m / (c.sizeofElem + 1)) (m % (c.sizeofElem + 1))),
          pbuf := (List.range' (m + 1) (ins.length * (c.sizeofElem + 1) + curK s - (m + 1))).map (qStore c (ins ++ curItem s)) } := by
        unfold flushProd; rw [hpb]
      rw [hfl]
      refine ⟨?_, rfl⟩
      constructor
      · exact hlt
      · rfl
      · exact h.items
      · show (s.data.set _ _).length = _
        rw [List.length_set]; exact h.dlen
      · rw [hdiv]; exact h.head
      · intro t ht1 ht2 ht3
        show (s.data.set _ _)[_]? = _
        rcases Nat.lt_or_ge t m with htm | htm
        · rw [List.getElem?_set_ne]
          · exact h.data t htm ht2 (by omega)
          · -- the address is another one
            intro he
            have et := Nat.mod_add_div t (c.sizeofElem + 1)
            have hs : 0 < c.sizeofElem := by omega
            have k1 : m % (c.sizeofElem + 1) = t % (c.sizeofElem + 1) := by
              have := congrArg (· % c.sizeofElem) he
              simp only [Nat.mul_comm _ c.sizeofElem, Nat.mul_add_mod, Nat.mod_eq_of_lt hk, Nat.mod_eq_of_lt ht2] at this
              exact this
            have k2 : m / (c.sizeofElem + 1) % c.numElems = t / (c.sizeofElem + 1) % c.numElems := by
              rw [k1] at he
              exact Nat.eq_of_mul_eq_mul_right hs (by omega)
            have k3 : t / (c.sizeofElem + 1) < m / (c.sizeofElem + 1) := by
              rcases Nat.lt_or_ge (t / (c.sizeofElem + 1)) (m / (c.sizeofElem + 1)) with hx | hx
              · exact hx
              · have := Nat.mul_le_mul_left (c.sizeofElem + 1) hx; omega
            have k4 : t / (c.sizeofElem + 1) + c.numElems ≤ m / (c.sizeofElem + 1) := by
              have e1 := Nat.mod_add_div (t / (c.sizeofElem + 1)) c.numElems
              have e2 := Nat.mod_add_div (m / (c.sizeofElem + 1)) c.numElems
              rw [k2] at e2
              rcases Nat.lt_or_ge (t / (c.sizeofElem + 1) / c.numElems) (m / (c.sizeofElem + 1) / c.numElems) with hx | hx
              · have := Nat.mul_le_mul_left c.numElems hx
                rw [Nat.mul_succ] at this
                omega
              · have := Nat.mul_le_mul_left c.numElems hx; omega
            have k5 := Nat.mul_le_mul_left (c.sizeofElem + 1) k4
            rw [Nat.mul_add, Nat.mul_comm _ c.numElems] at k5
            omega
        · have : t = m := by omega
          subst this
          rw [List.getElem?_set_self (by rw [h.dlen]; exact hg.off_lt _ _ ht2)]
          rfl
      · exact h.tail
      · exact h.cbuf
      · rw [hdiv]; exact h.rm
      · exact h.bound
      · exact h.prod
      · rw [hdiv]; exact h.cons
      · exact h.outs
    · have hst : qStore c (ins ++ curItem s) m = .head ((m / (c.sizeofElem + 1) + 1) % c.numElems) := by unfold qStore; rw [if_neg hk]
      rw [hst] at hpb
      have hdiv : (m + 1) / (c.sizeofElem + 1) = m / (c.sizeofElem + 1) + 1 := by
        have : m + 1 = (c.sizeofElem + 1) * (m / (c.sizeofElem + 1) + 1) := by rw [Nat.mul_add, Nat.mul_one]; omega
        rw [this, Nat.mul_div_cancel_left _ hw]
      have hfl : flushProd s = { s with
          head := (m / (c.sizeofElem + 1) + 1) % c.numElems,
          pbuf := (List.range' (m + 1) (ins.length * (c.sizeofElem + 1) + curK s - (m + 1))).map (qStore c (ins ++ curItem s)) } := by
        unfold flushProd; rw [hpb]
      rw [hfl]
      refine ⟨?_, rfl⟩
      constructor
      · exact hlt
      · rfl
      · exact h.items
      · exact h.dlen
      · rw [hdiv]
      · intro t ht1 ht2 ht3
        have htm : t < m := by
          rcases Nat.lt_or_ge t m with hx | hx
          · exact hx
          · exfalso; exact hk (by rw [show m = t by omega]; exact ht2)
        exact h.data t htm ht2 (by omega)
      · exact h.tail
      · exact h.cbuf
      · rw [hdiv]; have := h.rm; omega
      · exact h.bound
      · exact h.prod
      · rw [hdiv]
        intro r hr
        obtain ⟨c1, c2, c3, c4⟩ := h.cons r hr
        exact ⟨c1, c2, by omega, c4⟩
      · exact h.outs
  · have hpb := h.pbuf
    rw [show ins.length * (c.sizeofElem + 1) + curK s - m = 0 by omega] at hpb
    refine ⟨m, ?_⟩
    have : flushProd s = s := by unfold flushProd; rw [hpb]; rfl
    rw [this]
    exact ⟨h, rfl⟩

/-- A store of the consumer reaches memory. -/
theorem flush_cons {c : QConf} {s ins outs m V} (h : QInv c s ins outs m V) :
    ∃ V', V ≤ V' ∧ QInv c (flushCons s) ins outs m V' := by
  rcases h.cbuf with ⟨h1, h2⟩ | ⟨h1, h2⟩
  · refine ⟨V, Nat.le_refl _, ?_⟩
    have : flushCons s = s := by unfold flushCons; rw [h2]
    rw [this]; exact h
  · refine ⟨outs.length, by omega, ?_⟩
    have : flushCons s = { s with tail := outs.length % c.numElems, cbuf := [] } := by unfold flushCons; rw [h2]
    rw [this]
    constructor
    · exact h.le
    · exact h.pbuf
    · exact h.items
    · exact h.dlen
    · exact h.head
    · exact h.data
    · rfl
    · exact Or.inl ⟨rfl, rfl⟩
    · exact h.rm
    · have := h.bound; omega
    · intro i hi
      obtain ⟨p1, p2, p3, p4⟩ := h.prod i hi
      exact ⟨p1, p2, by omega, p4⟩
    · exact h.cons
    · exact h.outs

/-- The consumer finds the queue empty. -/
theorem cons_empty {c : QConf} (hg : c.Good) {s ins outs m V} (h : QInv c s ins outs m V) (hc : s.cons = none)
    (he : outs.length = m / (c.sizeofElem + 1)) : consStep c s = ok (s, some (.removed none 0)) := by
  simp only [consStep, hc, h.ownTail, h.head, he, hg.count (Nat.le_refl _) (Nat.le_add_right _ _), Nat.sub_self]
  rw [if_neg (by omega)]

/-- The consumer begins to remove. -/
theorem cons_begin {c : QConf} (hg : c.Good) {s ins outs m V} (h : QInv c s ins outs m V) (hc : s.cons = none)
    (hlt : outs.length < m / (c.sizeofElem + 1)) :
    ∃ s', consStep c s = ok (s', none) ∧ QInv c s' ins outs m V ∧ s'.cbuf = s.cbuf := by
  have hb : m / (c.sizeofElem + 1) ≤ outs.length + (c.numElems - 1) := by have := h.m_div; have := h.bound; have := h.V_le; omega
  refine ⟨{ s with cons := some ⟨outs.length % c.numElems, m / (c.sizeofElem + 1) - outs.length, []⟩ }, ?_, ?_, rfl⟩
  · simp only [consStep, hc, h.ownTail, h.head, hg.count (Nat.le_of_lt hlt) hb]
    rw [if_pos (by omega)]
  · exact ⟨h.le, h.pbuf, h.items, h.dlen, h.head, h.data, h.tail, h.cbuf, h.rm, h.bound, h.prod, by
      intro r hr
      cases hr
      have hP : outs.length < ins.length := by have := h.m_div; omega
      exact ⟨rfl, by simp only; omega, by simp only; omega, by simp, ins[outs.length], List.getElem?_eq_getElem hP, by simp⟩, h.outs⟩

/-- The consumer copies an octet. -/
theorem cons_copy {c : QConf} (hg : c.Good) {s ins outs m V} (h : QInv c s ins outs m V) {r : QRem} (hc : s.cons = some r)
    (hk : r.got.length < c.sizeofElem) : ∃ s', consStep c s = ok (s', none) ∧ QInv c s' ins outs m V ∧ s'.cbuf = s.cbuf := by
  obtain ⟨c1, c2, c3, c4, x, c5, c6⟩ := h.cons r hc
  have hx : x.length = c.sizeofElem := h.items x (List.mem_append_left _ (List.mem_iff_getElem?.mpr ⟨_, c5⟩))
  have hP := (List.getElem?_eq_some_iff.mp c5).1
  obtain ⟨d1, d2⟩ := div_of (w := c.sizeofElem + 1) (P := outs.length) (Nat.lt_succ_of_lt hk)
  have hm : (outs.length + 1) * (c.sizeofElem + 1) ≤ m := (Nat.le_div_iff_mul_le (by omega)).mp (by omega)
  have hn := hg.ge
  have hT : m ≤ outs.length * (c.sizeofElem + 1) + r.got.length + c.numElems * (c.sizeofElem + 1) := by
    have e1 := h.le
    have e2 := curK_le h
    have e3 : ins.length ≤ outs.length + (c.numElems - 1) := by have := h.bound; have := h.V_le; omega
    have e4 := Nat.mul_le_mul_right (c.sizeofElem + 1) e3
    have e5 : c.numElems * (c.sizeofElem + 1) = (c.numElems - 1) * (c.sizeofElem + 1) + (c.sizeofElem + 1) := by
      conv => lhs; rw [show c.numElems = (c.numElems - 1) + 1 by omega, Nat.add_mul, Nat.one_mul]
    rw [Nat.add_mul] at e4
    omega
  have hd := h.data (outs.length * (c.sizeofElem + 1) + r.got.length) (by rw [Nat.add_mul] at hm; omega) (by rw [d2]; exact hk) hT
  rw [d1, d2, octAt_append hP] at hd
  refine ⟨{ s with cons := some { r with got := r.got ++ [octAt ins outs.length r.got.length] } }, ?_, ?_, rfl⟩
  · simp only [consStep, hc]
    rw [if_pos hk, c1, hg.off, rd, hd]
    rfl
  · refine ⟨h.le, h.pbuf, h.items, h.dlen, h.head, h.data, h.tail, h.cbuf, h.rm, h.bound, h.prod, ?_, h.outs⟩
    intro r' hr'
    cases hr'
    refine ⟨c1, c2, c3, by simp; omega, x, c5, ?_⟩
    have ho : octAt ins outs.length r.got.length = x[r.got.length]'(by omega) := by
      unfold octAt; rw [c5]; simp [List.getElem?_eq_getElem (show r.got.length < x.length by omega)]
    simp only [List.length_append, List.length_singleton]
    rw [List.take_add_one, ← c6, ho, List.getElem?_eq_getElem (by omega)]
    rfl

/-- The consumer waits at the barrier. -/
theorem cons_wait {c : QConf} {s : QState} {r : QRem} (hc : s.cons = some r)
    (hk : ¬ r.got.length < c.sizeofElem) (hb : s.cbuf ≠ []) : consStep c s = ok (s, none) := by
  simp only [consStep, hc]
  rw [if_neg hk, if_neg hb]

/-- The consumer stores the index and returns. -/
theorem cons_end {c : QConf} (hg : c.Good) {s ins outs m V} (h : QInv c s ins outs m V) {r : QRem} (hc : s.cons = some r)
    (hk : ¬ r.got.length < c.sizeofElem) (hb : s.cbuf = []) : ∃ s', consStep c s = ok (s', some (.removed (some r.got) (r.count - 1))) ∧
      QInv c s' ins (outs ++ [r.got]) m V ∧ outs.length + 1 + (r.count - 1) ≤ m / (c.sizeofElem + 1) := by
  obtain ⟨c1, c2, c3, c4, x, c5, c6⟩ := h.cons r hc
  have hx : x.length = c.sizeofElem := h.items x (List.mem_append_left _ (List.mem_iff_getElem?.mpr ⟨_, c5⟩))
  have hgot : r.got = x := by rw [c6]; exact List.take_of_length_le (by omega)
  have hV : V = outs.length := by
    rcases h.cbuf with ⟨h1, -⟩ | ⟨-, h2⟩
    · exact h1
    · rw [hb] at h2; cases h2
  refine ⟨{ s with cbuf := [qNext c r.tail], cons := none }, ?_, ?_, by omega⟩
  · simp only [consStep, hc]
    rw [if_neg hk, if_pos hb]
  · refine ⟨h.le, h.pbuf, h.items, h.dlen, h.head, h.data, h.tail, ?_, ?_, h.bound, h.prod, ?_, ?_⟩
    · right
      rw [List.length_append, List.length_singleton, c1, hg.next]
      exact ⟨by omega, rfl⟩
    · rw [List.length_append, List.length_singleton]; omega
    · intro r' hr'; cases hr'
    · rw [List.length_append, List.length_singleton, List.take_add_one, ← h.outs, c5, hgot]; rfl

end Wdns
