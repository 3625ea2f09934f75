import Verif.Spec.Ubuf
import Mathlib.Data.List.Forall2
import Verif.Tac

namespace Wdns
open Outcome Spec
namespace Ubuf

/-- The invariant: holds `l`, positive capacity and hint. -/
def Inv (u : Ubuf) (l : List UInt8) : Prop := UHolds u l ∧ 1 ≤ u.hint ∧ 1 ≤ u.nAlloced

theorem length_realloc (v : List (Option UInt8)) (k : Nat) : (realloc v k).length = k := by
  simp [realloc]; omega

theorem take_realloc {v : List (Option UInt8)} {k n : Nat} (hn : n ≤ v.length) (hk : n ≤ k) :
    (realloc v k).take n = v.take n := by
  simp [realloc, List.take_take, Nat.min_eq_left hk, List.take_append_of_le_length hn]

theorem length_poke {v w : List (Option UInt8)} {off : Nat} {bs : List (Option UInt8)}
    (h : poke v off bs = ok w) : w.length = v.length := by
  unfold poke at h; split at h <;> simp at h
  subst h; simp; omega

theorem poke_ok {v : List (Option UInt8)} {off : Nat} {bs : List (Option UInt8)}
    (h : off + bs.length ≤ v.length) :
    ∃ w, poke v off bs = ok w ∧ w.length = v.length ∧
      ∀ k, k ≤ bs.length → w.take (off + k) = v.take off ++ bs.take k := by
  refine ⟨_, by simp [poke, h]; rfl, by simp; omega, fun k hk => ?_⟩
  have h1 : (v.take off).length = off := by simp; omega
  rw [← List.append_assoc, List.append_assoc, List.take_append, h1]
  rw [List.take_of_length_le (by omega)]
  simp [List.take_append_of_le_length hk]

theorem inv_init (hint : Nat) : Inv (init hint) [] := by
  unfold init Inv UHolds
  by_cases h : hint = 0 <;> simp [h, malloc] <;> omega

theorem inv_grow {u : Ubuf} {l : List UInt8} (h : Inv u l) :
    Inv ⟨realloc u.v (u.nAlloced * 2), u.n, u.n, u.nAlloced * 2, u.hint⟩ l := by
  obtain ⟨⟨h1, h2, h3, h4, h5⟩, h6, h7⟩ := h
  refine ⟨⟨length_realloc .., rfl, by simp; omega, h4, ?_⟩, h6, by simp; omega⟩
  show (realloc _ _).take u.n = _
  rw [take_realloc (by omega) (by omega), h5]

theorem reserveLoop_spec (k : Nat) (l : List UInt8) : ∀ fuel (u : Ubuf), Inv u l →
    u.n + k + 1 ≤ fuel + u.nAlloced → 1 ≤ fuel →
    ∃ u', reserveLoop k fuel u = ok u' ∧ Inv u' l ∧ k ≤ u'.nAlloced - u'.n ∧ u'.hint = u.hint ∧
      (u' = u ∨ u'.nAlloced < 2 * (l.length + k)) := by
  intro fuel
  induction fuel with
  | zero => intro u _ _ h; omega
  | succ fuel ih =>
    intro u hu hf _
    unfold reserveLoop
    by_cases hk : k > u.nAlloced - u.n
    · simp only [if_pos hk]
      have hu' := inv_grow hu
      have h7 := hu.2.2
      have h3 := hu.1.2.2.1
      obtain ⟨u', e, i, c, hh, hb⟩ := ih _ hu' (by simp; omega) (by omega)
      refine ⟨u', e, i, c, hh, Or.inr ?_⟩
      have h4 := hu.1.2.2.2.1
      rcases hb with hb | hb
      · subst hb; simp; omega
      · exact hb
    · simp only [if_neg hk]
      exact ⟨u, rfl, hu, by omega, rfl, Or.inl rfl⟩

theorem reserve_spec {u : Ubuf} {l : List UInt8} (h : Inv u l) (k : Nat) :
    ∃ u', reserve u k = ok u' ∧ Inv u' l ∧ k ≤ u'.nAlloced - u'.n ∧ u'.hint = u.hint ∧
      (u' = u ∨ u'.nAlloced < 2 * (l.length + k)) :=
  reserveLoop_spec k l _ u h (by omega) (by omega)

theorem addLoop_spec (l : List UInt8) : ∀ fuel (u : Ubuf), Inv u l →
    u.n + 2 ≤ fuel + u.nAlloced → 1 ≤ fuel →
    ∃ u', addLoop fuel u = ok u' ∧ Inv u' l ∧ u'.n + 1 ≤ u'.nAlloced ∧ u'.hint = u.hint := by
  intro fuel
  induction fuel with
  | zero => intro u _ _ h; omega
  | succ fuel ih =>
    intro u hu hf _
    unfold addLoop
    by_cases hk : u.n + 1 > u.nAlloced
    · simp only [if_pos hk]
      have h7 := hu.2.2
      obtain ⟨u', e, i, c, hh⟩ := ih _ (inv_grow hu) (by simp; omega) (by omega)
      exact ⟨u', e, i, c, hh⟩
    · simp only [if_neg hk]
      exact ⟨u, rfl, hu, by omega, rfl⟩

/-- Writing at the end of the contents and moving the end. -/
theorem inv_write {u : Ubuf} {l bs : List UInt8} (h : Inv u l) (hc : u.n + bs.length ≤ u.nAlloced) :
    ∃ v, poke u.v u.n (bs.map some) = ok v ∧ v.length = u.nAlloced ∧
      ∀ x, x ≤ bs.length → Inv ⟨v, u.n + x, u.n + x, u.nAlloced, u.hint⟩ (l ++ bs.take x) := by
  obtain ⟨⟨h1, h2, h3, h4, h5⟩, h6, h7⟩ := h
  obtain ⟨w, e, hl, ht⟩ := poke_ok (v := u.v) (off := u.n) (bs := bs.map some) (by simp; omega)
  refine ⟨w, e, by omega, fun x hx => ⟨⟨by simp; omega, rfl, by simp; omega, by simp; omega, ?_⟩, h6, h7⟩⟩
  show w.take (u.n + x) = _
  rw [ht x (by simpa using hx), h5]; simp [List.map_take]

theorem append_spec {u : Ubuf} {l : List UInt8} (h : Inv u l) (bs : List UInt8) :
    ∃ u', append u (bs.map some) = ok u' ∧ Inv u' (l ++ bs) := by
  obtain ⟨u', e, i, c, hh, _⟩ := reserve_spec h bs.length
  obtain ⟨v, ev, _, hi⟩ := inv_write i (bs := bs) (by have := i.1.2.2.1; omega)
  refine ⟨_, by simp [append, e, ev]; rfl, ?_⟩
  simpa using hi bs.length (Nat.le_refl _)

theorem add_spec {u : Ubuf} {l : List UInt8} (h : Inv u l) (b : UInt8) :
    ∃ u', add u b = ok u' ∧ Inv u' (l ++ [b]) := by
  obtain ⟨u', e, i, c, hh⟩ := addLoop_spec l (u.n + 2) u h (by omega) (by omega)
  obtain ⟨v, ev, _, hi⟩ := inv_write i (bs := [b]) (by simpa using c)
  refine ⟨⟨v, u'.n + 1, u'.n + 1, u'.nAlloced, u'.hint⟩, ?_, ?_⟩
  · unfold add; rw [e]; simp only [ok_bind]
    have ev' : poke u'.v u'.n [some b] = ok v := by simpa using ev
    rw [ev']; simp
  · simpa using hi 1 (by simp)

theorem fill_spec {u : Ubuf} {l : List UInt8} (h : Inv u l) {k x : Nat} {bs : List UInt8}
    (hk : bs.length ≤ k) (hx : x ≤ bs.length) :
    ∃ u', (do
      let u ← reserve u k
      let u ← pokePtr u bs
      advance u x) = ok u' ∧ Inv u' (l ++ bs.take x) := by
  obtain ⟨u', e, i, c, hh, _⟩ := reserve_spec h k
  have hp := i.1.2.1
  obtain ⟨v, ev, _, hi⟩ := inv_write i (bs := bs) (by have := i.1.2.2.1; omega)
  refine ⟨_, ?_, hi x hx⟩
  simp [e, pokePtr, hp, ev, advance]; omega

theorem clip_spec {u : Ubuf} {l : List UInt8} (h : Inv u l) (k : Nat) : Inv (clip u k) (l.take k) := by
  obtain ⟨⟨h1, h2, h3, h4, h5⟩, h6, h7⟩ := h
  unfold clip
  by_cases hk : k < u.n
  · simp only [if_pos hk]
    refine ⟨⟨h1, rfl, by simp; omega, by simp; omega, ?_⟩, h6, h7⟩
    show u.v.take k = _
    have : u.v.take k = (u.v.take u.n).take k := by rw [List.take_take, Nat.min_eq_left (by omega)]
    rw [this, h5, List.map_take]
  · simp only [if_neg hk]
    rw [List.take_of_length_le (by omega)]
    exact ⟨⟨h1, h2, h3, h4, h5⟩, h6, h7⟩

theorem value_spec {u : Ubuf} {l : List UInt8} (h : Inv u l) {i : Nat} {b : UInt8} (hb : l[i]? = some b) :
    value u i = ok b := by
  obtain ⟨⟨h1, h2, h3, h4, h5⟩, h6, h7⟩ := h
  have hi : i < l.length := (List.getElem?_eq_some_iff.mp hb).1
  have : u.v[i]? = some (some b) := by
    have : (u.v.take u.n)[i]? = some (some b) := by rw [h5]; simp [hb]
    rw [List.getElem?_take_of_lt (by omega)] at this
    exact this
  simp [value, this, h4, hi]

theorem value_abort {u : Ubuf} {l : List UInt8} (h : Inv u l) {i : Nat} (hb : l[i]? = none) :
    value u i = abort := by
  have h4 := h.1.2.2.2.1
  simp at hb
  simp [value]; omega

theorem rstrip_spec {u : Ubuf} {l : List UInt8} (h : Inv u l) (c : UInt8) :
    ∃ u', rstrip u c = ok u' ∧ Inv u' (stripLast c l) := by
  have h4 := h.1.2.2.2.1
  unfold rstrip stripLast
  by_cases hn : u.n > 0
  · simp only [if_pos hn]
    have hlt : l.length - 1 < l.length := by omega
    have hv := value_spec h (i := u.n - 1) (b := l[l.length - 1]) (by rw [h4]; simp [hlt])
    rw [hv]
    have hgl : l.getLast? = some l[l.length - 1] := by
      rw [List.getLast?_eq_getElem?]; simp [hlt]
    simp only [ok_bind, hgl, Option.some.injEq]
    by_cases hc : l[l.length - 1] = c
    · rw [if_pos hc, if_pos hc, List.dropLast_eq_take]
      exact ⟨_, rfl, by rw [h4]; exact clip_spec h _⟩
    · rw [if_neg hc, if_neg hc]
      exact ⟨_, rfl, h⟩
  · simp only [if_neg hn]
    have : l = [] := List.eq_nil_of_length_eq_zero (by omega)
    subst this
    exact ⟨u, rfl, by simpa using h⟩

theorem cterm_spec {u : Ubuf} {l : List UInt8} (h : Inv u l) :
    ∃ u', cterm u = ok u' ∧ Inv u' (if l.getLast? = some 0 then l else l ++ [0]) := by
  have h4 := h.1.2.2.2.1
  have ha := append_spec h [0]
  unfold cterm
  by_cases hn : u.n = 0
  · simp only [if_pos hn]
    have : l = [] := List.eq_nil_of_length_eq_zero (by omega)
    subst this
    simpa using ha
  · simp only [if_neg hn]
    have hlt : l.length - 1 < l.length := by omega
    have hv := value_spec h (i := u.n - 1) (b := l[l.length - 1]) (by rw [h4]; simp [hlt])
    rw [hv]
    have hgl : l.getLast? = some l[l.length - 1] := by
      rw [List.getLast?_eq_getElem?]; simp [hlt]
    simp only [ok_bind, hgl, Option.some.injEq, ne_eq]
    by_cases hc : l[l.length - 1] = 0
    · simp only [hc, not_true_eq_false, if_false, if_true]
      exact ⟨_, rfl, h⟩
    · simp only [hc, not_false_eq_true, if_true, if_false]
      simpa using ha

theorem addCstr_spec {u : Ubuf} {l : List UInt8} (h : Inv u l) (s : List UInt8) :
    ∃ u', addCstr u s = ok u' ∧ Inv u' (stripLast 0 l ++ s) := by
  obtain ⟨u1, e1, i1⟩ := rstrip_spec h 0
  obtain ⟨u2, e2, i2⟩ := append_spec i1 s
  exact ⟨u2, by simp [addCstr, e1, e2], i2⟩

theorem addFmt_spec {u : Ubuf} {l : List UInt8} (h : Inv u l) (s : List UInt8) :
    ∃ u', addFmt u s = ok u' ∧ Inv u' (stripLast 0 l ++ s) := by
  obtain ⟨u1, e1, i1⟩ := rstrip_spec h 0
  obtain ⟨u2, e2, i2⟩ := fill_spec i1 (k := u1.n + s.length + 1) (x := s.length) (bs := s ++ [0])
    (by simp only [List.length_append, List.length_singleton]; omega) (by simp)
  refine ⟨u2, ?_, by simpa using i2⟩
  unfold addFmt; rw [e1]; simpa using e2

theorem dupCstr_spec (s : List UInt8) : ∃ u', dupCstr s = ok u' ∧ Inv u' s := by
  obtain ⟨u, e, i⟩ := append_spec (inv_init ((s.length + 1) % 4294967296)) s
  exact ⟨u, e, by simpa using i⟩

theorem reset_spec {u : Ubuf} {l : List UInt8} (h : Inv u l) : Inv (reset u) [] := by
  obtain ⟨⟨h1, h2, h3, h4, h5⟩, h6, h7⟩ := h
  unfold reset
  split
  · exact ⟨⟨length_realloc .., rfl, by simp, rfl, by simp⟩, h6, h6⟩
  · exact ⟨⟨h1, rfl, by simp, rfl, by simp⟩, h6, h7⟩

theorem detach_spec {u : Ubuf} {l : List UInt8} (h : Inv u l) : Inv (detach u).2 [] := by
  obtain ⟨_, h6, h7⟩ := h
  exact ⟨⟨by simp [detach, malloc], rfl, by simp [detach], rfl, by simp [detach]⟩, h6, h6⟩

theorem extend_spec {u w : Ubuf} {l m : List UInt8} (h : Inv u l) (hw : Inv w m) :
    ∃ u', extend u w = ok u' ∧ Inv u' (l ++ m) := by
  obtain ⟨⟨h1, h2, h3, h4, h5⟩, h6, h7⟩ := hw
  unfold extend
  rw [if_pos (by omega), h5]
  exact append_spec h m

end Ubuf

/-- The collection of vectors holds the collection of sequences. -/
def UAll (s : UState) (q : Seqs) : Prop :=
  s.length = q.length ∧ ∀ (i : Nat) l, q[i]? = some (some l) → ∃ u, s[i]? = some (some u) ∧ Ubuf.Inv u l

theorem uAll_append {s : UState} {q : Seqs} {u : Ubuf} {l : List UInt8} (h : UAll s q) (hu : Ubuf.Inv u l) :
    UAll (s ++ [some u]) (q ++ [some l]) := by
  refine ⟨by simp [h.1], fun i m hm => ?_⟩
  rcases Nat.lt_trichotomy i q.length with hi | hi | hi
  · rw [List.getElem?_append_left hi] at hm
    rw [List.getElem?_append_left (by rw [h.1]; exact hi)]
    exact h.2 i m hm
  · subst hi
    simp at hm; subst hm
    exact ⟨u, by rw [← h.1]; simp, hu⟩
  · rw [List.getElem?_eq_none (by simp; omega)] at hm; simp at hm

theorem uAll_set {s : UState} {q : Seqs} {u : Ubuf} {l : List UInt8} (i : Nat) (h : UAll s q)
    (hu : Ubuf.Inv u l) : UAll (s.set i (some u)) (q.set i (some l)) := by
  refine ⟨by simp [h.1], fun j m hm => ?_⟩
  by_cases hj : i = j
  · subst hj
    by_cases hi : i < q.length
    · simp [hi] at hm; subst hm
      exact ⟨u, by simp [h.1, hi], hu⟩
    · rw [List.getElem?_eq_none (by simp; omega)] at hm; simp at hm
  · rw [List.getElem?_set_ne hj] at hm ⊢
    exact h.2 j m hm

theorem uAll_unset {s : UState} {q : Seqs} (i : Nat) (h : UAll s q) :
    UAll (s.set i none) (q.set i none) := by
  refine ⟨by simp [h.1], fun j m hm => ?_⟩
  by_cases hj : i = j
  · subst hj
    by_cases hi : i < q.length
    · simp [hi] at hm
    · rw [List.getElem?_eq_none (by simp; omega)] at hm; simp at hm
  · rw [List.getElem?_set_ne hj] at hm ⊢
    exact h.2 j m hm

theorem uAll_get {s : UState} {q : Seqs} (h : UAll s q) {i : Nat} {l : List UInt8}
    (hl : getSeq q i = some l) : ∃ u, uGet s i = ok u ∧ Ubuf.Inv u l := by
  have : q[i]? = some (some l) := by
    unfold getSeq at hl
    cases hq : q[i]? with
    | none => simp [hq] at hl
    | some o => simp [hq] at hl; simp [hl]
  obtain ⟨u, e, i⟩ := h.2 i l this
  exact ⟨u, by simp [uGet, e], i⟩

/-- One operation. -/
theorem uStep_spec {op : UOp} {s : UState} {q q' : Seqs} {o : Seen} (h : UAll s q)
    (hop : ∀ i j, op = .extend i j → i ≠ j) (hq : seqStep op q = some (q', o)) :
    ∃ s' o', uStep op s = ok (s', o') ∧ UAll s' q' ∧ SeenAs o' o := by
  cases op <;> simp only [seqStep, Option.bind_eq_bind, Option.bind_eq_some_iff, Option.some.injEq,
    Prod.mk.injEq] at hq
  case init hint =>
    obtain ⟨rfl, rfl⟩ := hq
    exact ⟨_, _, rfl, uAll_append h (Ubuf.inv_init _), trivial⟩
  case dupCstr t =>
    obtain ⟨rfl, rfl⟩ := hq
    obtain ⟨u, e, i⟩ := Ubuf.dupCstr_spec t
    exact ⟨_, .none, (by simp only [uStep, e, ok_bind, if_false]), uAll_append h i, trivial⟩
  case reinit i hint =>
    obtain ⟨l, hl, rfl, rfl⟩ := hq
    obtain ⟨u, e, iv⟩ := uAll_get h hl
    exact ⟨_, .none, (by simp only [uStep, e, ok_bind, if_false]), uAll_set i h (Ubuf.inv_init hint), trivial⟩
  case detach i =>
    obtain ⟨l, hl, rfl, rfl⟩ := hq
    obtain ⟨u, e, iv⟩ := uAll_get h hl
    refine ⟨_, .block u.v u.n, (by simp only [uStep, e, ok_bind, Ubuf.detach]), uAll_set i h (Ubuf.detach_spec iv), ?_⟩
    exact ⟨iv.1.2.2.2.1, iv.1.2.2.2.2⟩
  case destroy i =>
    obtain ⟨l, hl, rfl, rfl⟩ := hq
    obtain ⟨u, e, iv⟩ := uAll_get h hl
    exact ⟨_, .none, (by simp only [uStep, e, ok_bind, if_false]), uAll_unset i h, trivial⟩
  case reserve i k =>
    obtain ⟨l, hl, rfl, rfl⟩ := hq
    obtain ⟨u, e, iv⟩ := uAll_get h hl
    obtain ⟨u', e', iv', _⟩ := Ubuf.reserve_spec iv k
    exact ⟨_, .none, (by simp only [uStep, e, e', ok_bind, if_false]), uAll_set i h iv', trivial⟩
  case add i b =>
    obtain ⟨l, hl, rfl, rfl⟩ := hq
    obtain ⟨u, e, iv⟩ := uAll_get h hl
    obtain ⟨u', e', iv'⟩ := Ubuf.add_spec iv b
    exact ⟨_, .none, (by simp only [uStep, e, e', ok_bind, if_false]), uAll_set i h iv', trivial⟩
  case append i bs =>
    obtain ⟨l, hl, rfl, rfl⟩ := hq
    obtain ⟨u, e, iv⟩ := uAll_get h hl
    obtain ⟨u', e', iv'⟩ := Ubuf.append_spec iv bs
    exact ⟨_, .none, (by simp only [uStep, e, e', ok_bind, if_false]), uAll_set i h iv', trivial⟩
  case extend i j =>
    obtain ⟨m, hm, l, hl, rfl, rfl⟩ := hq
    obtain ⟨u, e, iv⟩ := uAll_get h hl
    obtain ⟨w, ew, iw⟩ := uAll_get h hm
    obtain ⟨u', e', iv'⟩ := Ubuf.extend_spec iv iw
    exact ⟨_, .none, (by simp only [uStep, e, ew, e', hop i j rfl, ok_bind, if_false]), uAll_set i h iv', trivial⟩
  case reset i =>
    obtain ⟨l, hl, rfl, rfl⟩ := hq
    obtain ⟨u, e, iv⟩ := uAll_get h hl
    exact ⟨_, .none, (by simp only [uStep, e, ok_bind, if_false]), uAll_set i h (Ubuf.reset_spec iv), trivial⟩
  case clip i k =>
    obtain ⟨l, hl, rfl, rfl⟩ := hq
    obtain ⟨u, e, iv⟩ := uAll_get h hl
    exact ⟨_, .none, (by simp only [uStep, e, ok_bind, if_false]), uAll_set i h (Ubuf.clip_spec iv k), trivial⟩
  case size i =>
    obtain ⟨l, hl, rfl, rfl⟩ := hq
    obtain ⟨u, e, iv⟩ := uAll_get h hl
    exact ⟨_, .size u.n, (by simp only [uStep, e, ok_bind]), h, iv.1.2.2.2.1⟩
  case value i k =>
    obtain ⟨l, hl, b, hb, rfl, rfl⟩ := hq
    obtain ⟨u, e, iv⟩ := uAll_get h hl
    exact ⟨_, .byte b, (by simp only [uStep, e, Ubuf.value_spec iv hb, ok_bind]), h, rfl⟩
  case fill i k bs x =>
    split at hq
    · rename_i hc
      simp only [Option.bind_eq_some_iff, Option.some.injEq, Prod.mk.injEq] at hq
      obtain ⟨l, hl, rfl, rfl⟩ := hq
      obtain ⟨u, e, iv⟩ := uAll_get h hl
      obtain ⟨u', e', iv'⟩ := Ubuf.fill_spec iv hc.1 hc.2
      exact ⟨_, .none, (by simp only [uStep, e, e', ok_bind]), uAll_set i h iv', trivial⟩
    · simp at hq
  case addCstr i t =>
    obtain ⟨l, hl, rfl, rfl⟩ := hq
    obtain ⟨u, e, iv⟩ := uAll_get h hl
    obtain ⟨u', e', iv'⟩ := Ubuf.addCstr_spec iv t
    exact ⟨_, .none, (by simp only [uStep, e, e', ok_bind, if_false]), uAll_set i h iv', trivial⟩
  case addFmt i t =>
    obtain ⟨l, hl, rfl, rfl⟩ := hq
    obtain ⟨u, e, iv⟩ := uAll_get h hl
    obtain ⟨u', e', iv'⟩ := Ubuf.addFmt_spec iv t
    exact ⟨_, .none, (by simp only [uStep, e, e', ok_bind, if_false]), uAll_set i h iv', trivial⟩
  case cterm i =>
    obtain ⟨l, hl, rfl, rfl⟩ := hq
    obtain ⟨u, e, iv⟩ := uAll_get h hl
    obtain ⟨u', e', iv'⟩ := Ubuf.cterm_spec iv
    exact ⟨_, .none, (by simp only [uStep, e, e', ok_bind, if_false]), uAll_set i h iv', trivial⟩
  case rstrip i c =>
    obtain ⟨l, hl, rfl, rfl⟩ := hq
    obtain ⟨u, e, iv⟩ := uAll_get h hl
    obtain ⟨u', e', iv'⟩ := Ubuf.rstrip_spec iv c
    exact ⟨_, .none, (by simp only [uStep, e, e', ok_bind, if_false]), uAll_set i h iv', trivial⟩

/-- A sequence of operations. -/
theorem uRun_spec : ∀ (ops : List UOp) (s : UState) (q q' : Seqs) (os : List Seen), UAll s q →
    (∀ i j, UOp.extend i j ∈ ops → i ≠ j) → seqRun ops q = some (q', os) →
    ∃ s' os', uRun ops s = ok (s', os') ∧ UAll s' q' ∧ List.Forall₂ SeenAs os' os := by
  intro ops
  induction ops with
  | nil =>
    intro s q q' os h _ hq
    simp [seqRun] at hq
    obtain ⟨rfl, rfl⟩ := hq
    exact ⟨s, [], rfl, h, .nil⟩
  | cons op ops ih =>
    intro s q q' os h hop hq
    simp only [seqRun, Option.bind_eq_bind, Option.bind_eq_some_iff, Option.some.injEq,
      Prod.mk.injEq] at hq
    obtain ⟨⟨q1, o⟩, h1, ⟨q2, os2⟩, h2, rfl, rfl⟩ := hq
    obtain ⟨s1, o1, e1, a1, v1⟩ := uStep_spec h (fun i j he => hop i j (by simp [he])) h1
    obtain ⟨s2, os2', e2, a2, v2⟩ := ih s1 q1 _ _ a1 (fun i j he => hop i j (by simp [he])) h2
    exact ⟨s2, o1 :: os2', by simp [uRun, e1, e2], a2, .cons v1 v2⟩

end Wdns
