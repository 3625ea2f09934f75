import Verif.Props.Rate

/-!
# `my_rate_sleep` with a period that does not divide a second (C95)
-/

namespace Wdns
open Outcome Spec

namespace Spec

/-- Seconds are divided into periods of `p` nanoseconds, counted anew in every second, so that the last one may be shorter.  `b` is in a later one than `a`. -/
def LaterPeriod (p : Int) (a b : Timespec) : Prop := a.sec < b.sec ∨ (a.sec = b.sec ∧ a.nsec / p < b.nsec / p)

end Spec

theorem laterPeriod_trans {p : Int} {a b c : Timespec} (h1 : LaterPeriod p a b) (h2 : LaterPeriod p b c) : LaterPeriod p a c := by
  unfold LaterPeriod at *; omega

theorem laterPeriod_of_le {p : Int} {a b c : Timespec} (hp : 0 < p) (h1 : LaterPeriod p a b) (hb : Normal b) (hc : Normal c) (h : nanos b ≤ nanos c) :
    LaterPeriod p a c := by
  unfold LaterPeriod nanos Normal at *
  by_cases he : b.sec = c.sec
  · have := Int.ediv_le_ediv hp (show b.nsec ≤ c.nsec by omega)
    omega
  · omega

theorem nextTick_later {t r : Timespec} {p : Int} (ht : Normal t) (hs : 0 ≤ t.sec) (hp : 0 < p) (hp' : p < 1000000000) (hr : t.sec + 2 < 2 ^ 63)
    (h : calcNextTick t ⟨0, p⟩ = ok r) : LaterPeriod p t r := by
  rw [calcNextTick_eq ht (by unfold Normal; simp only; omega) hs (by simp) (by simp only; omega)] at h
  simp only [if_pos (show p > 0 from hp), gt_iff_lt, Int.lt_irrefl, if_false, ok.injEq] at h
  subst h
  unfold LaterPeriod Normal at *
  simp only
  have h1 := Int.emod_add_mul_ediv t.nsec p
  have h2 := Int.emod_lt_of_pos t.nsec hp
  have h3 := Int.emod_nonneg t.nsec (show p ≠ 0 by omega)
  have h4 : 0 ≤ t.nsec / p := Int.ediv_nonneg ht.1 (by omega)
  have h5 : 0 ≤ p * (t.nsec / p) := Int.mul_nonneg (by omega) h4
  by_cases hge : t.nsec - t.nsec % p + p < 1000000000
  · right
    have e1 : (t.nsec - t.nsec % p + p) / 1000000000 = 0 := Int.ediv_eq_zero_of_lt (by omega) hge
    have e2 : (t.nsec - t.nsec % p + p) % 1000000000 = t.nsec - t.nsec % p + p := Int.emod_eq_of_lt (by omega) hge
    rw [e1, e2, show t.nsec - t.nsec % p + p = p * (t.nsec / p + 1) by rw [Int.mul_add]; omega, Int.mul_ediv_cancel_left _ (by omega)]
    omega
  · left
    omega

theorem calls_later {t : Timespec} {r : Rate} {rets : List Timespec} {p : Int} (h : Calls t r rets) (hf : r.freq = 0) (hc : r.count + rets.length < 2 ^ 64)
    (hp : r.period = ⟨0, p⟩) (hp0 : 0 < p) (hp1 : p < 1000000000) (ht0 : 0 ≤ nanos t)
    (hk : r.count ≠ 0 → Normal t ∧ t.sec < 2 ^ 33 ∧ calcNextTick t r.period = ok r.nextTick) :
    rets.Pairwise (LaterPeriod p) ∧ (∀ x ∈ rets, Normal x) ∧ (r.count ≠ 0 → ∀ x ∈ rets, LaterPeriod p t x) := by
  induction h with
  | done => exact ⟨.nil, by simp, by simp⟩
  | @call t r r' rets now wake adj tick hn hw h0 h1 hr e h2 hcalls ih =>
    have hs : 0 ≤ now.sec := by unfold nanos Normal at *; omega
    have hws : now.sec ≤ wake.sec := by unfold nanos Normal at *; omega
    have hpN : Normal r.period := by rw [hp]; unfold Normal; simp only; omega
    have hpn : nanos r.period = p := by rw [hp]; simp [nanos]
    have hps : r.period.sec = 0 := by rw [hp]
    have hkt : r.count ≠ 0 → Normal r.nextTick ∧ nanos t < nanos r.nextTick ∧ nanos r.nextTick ≤ nanos t + p ∧ t.sec ≤ r.nextTick.sec ∧ 0 ≤ t.sec := by
      intro hcnt
      obtain ⟨a, b, c⟩ := hk hcnt
      have hts : 0 ≤ t.sec := by unfold nanos Normal at *; omega
      obtain ⟨x, x1, x2, x3, x4, x5⟩ := C95_next_tick a hpN hts (by omega) (by omega) (by omega)
      rw [c] at x1
      obtain rfl := ok.inj x1
      exact ⟨x2, x3, by omega, x5, hts⟩
    rw [List.length_cons] at hc
    obtain ⟨k, next, k1, k2, k3⟩ := rateSleep_ok (adj := adj) hf (by omega) hpN (by omega) (by omega) (by omega) hn hw hs h1 hr (by
      intro hcnt
      obtain ⟨a, b, c, d, e⟩ := hkt hcnt
      obtain ⟨a', b', -⟩ := hk hcnt
      refine ⟨a, by omega, ?_⟩
      unfold nanos Normal at *
      omega)
    rw [e] at k3
    simp only [ok.injEq, Prod.mk.injEq] at k3
    obtain ⟨rfl, rfl⟩ := k3
    have hret : (if (if nanos now < nanos k then some k else none) = none then now else wake) = (if nanos now < nanos k then wake else now) := by
      by_cases hl : nanos now < nanos k
      · rw [if_pos hl, if_pos hl, if_neg (by simp)]
      · rw [if_neg hl, if_neg hl, if_pos rfl]
    rw [hret] at hcalls ih ⊢
    generalize hret' : (if nanos now < nanos k then wake else now) = ret at *
    have hge : nanos k ≤ nanos ret := by
      rw [← hret']
      by_cases hl : nanos now < nanos k
      · rw [if_pos hl]; exact h2 k (if_pos hl)
      · rw [if_neg hl]; omega
    have hretN : Normal ret ∧ 0 ≤ ret.sec ∧ ret.sec < 2 ^ 33 ∧ 0 ≤ nanos ret := by
      rw [← hret']
      split
      · exact ⟨hw, by omega, hr, by omega⟩
      · exact ⟨hn, hs, by omega, by omega⟩
    have ih' := ih hf (by dsimp only; omega) hp hretN.2.2.2 fun _ => ⟨hretN.1, hretN.2.2.1, k2⟩
    dsimp only at ih'
    obtain ⟨p1, p3, p2⟩ := ih'
    have p2' := p2 (by omega)
    refine ⟨List.pairwise_cons.mpr ⟨p2', p1⟩, fun x hx => ?_, ?_⟩
    · rcases List.mem_cons.mp hx with rfl | hx
      · exact hretN.1
      · exact p3 x hx
    intro hcnt
    rw [if_neg hcnt] at k1
    obtain ⟨a, b, c, d, e'⟩ := hkt hcnt
    obtain ⟨a', b', c'⟩ := hk hcnt
    rw [hp] at c'
    have hfirst : LaterPeriod p t ret :=
      laterPeriod_of_le hp0 (nextTick_later a' e' hp0 hp1 (by omega) c') a hretN.1 (by rw [← k1]; exact hge)
    intro x hx
    rcases List.mem_cons.mp hx with rfl | hx
    · exact hfirst
    · exact laterPeriod_trans hfirst (p2' x hx)

/-- **C95**: for every period below a second, whether or not it divides one: no two calls return within the same period, if periods are counted anew in every second. -/
theorem C95_rate_any {t : Timespec} {p : Int} {rets : List Timespec} (h : Calls t (Rate.fresh ⟨0, p⟩ 0) rets) (hc : rets.length < 2 ^ 64)
    (hp : 0 < p) (hp1 : p < 1000000000) (ht0 : 0 ≤ nanos t) : rets.Pairwise (LaterPeriod p) :=
  (calls_later h rfl (by show 0 + _ < _; omega) rfl hp hp1 ht0 (fun h => absurd rfl h)).1

/-- **C95**: so in no second of the clock do more calls return than periods begin in it, which is at most one more than asked for. -/
theorem C95_per_second {t : Timespec} {p : Int} {rets : List Timespec} (h : Calls t (Rate.fresh ⟨0, p⟩ 0) rets) (hc : rets.length < 2 ^ 64)
    (hp : 0 < p) (hp1 : p < 1000000000) (ht0 : 0 ≤ nanos t) (s : Int) : ((rets.filter (·.sec = s)).length : Int) ≤ 999999999 / p + 1 := by
  obtain ⟨h1, h2, -⟩ := calls_later h rfl (by show 0 + _ < _; omega) rfl hp hp1 ht0 (fun h => absurd rfl h)
  have h3 : (rets.filter (·.sec = s)).Pairwise fun a b => a.nsec / p < b.nsec / p := by
    refine (List.Pairwise.filter _ h1).imp_of_mem fun {a b} ha hb hl => ?_
    have ea := (List.mem_filter.mp ha).2
    have eb := (List.mem_filter.mp hb).2
    simp only [decide_eq_true_eq] at ea eb
    unfold LaterPeriod at hl
    omega
  have h4 : ∀ x ∈ rets.filter (·.sec = s), Normal x := fun x hx => h2 x (List.mem_filter.mp hx).1
  generalize rets.filter (·.sec = s) = l at h3 h4
  have h0 : 0 ≤ 999999999 / p := Int.ediv_nonneg (by decide) (by omega)
  cases l with
  | nil => simp only [List.length_nil]; omega
  | cons a l =>
    obtain ⟨b, hb⟩ : ∃ b, (a :: l)[0 + l.length]? = some b := ⟨(a :: l)[0 + l.length]'(by simp), List.getElem?_eq_getElem _⟩
    have hg := pairwise_gap (fun x => x.nsec / p) h3 (i := 0) (n := l.length) (a := a) rfl hb
    have ha := h4 a (by simp)
    have hb' := h4 b (List.mem_of_getElem? hb)
    unfold Normal at ha hb'
    have e1 : 0 ≤ a.nsec / p := Int.ediv_nonneg ha.1 (by omega)
    have e2 := Int.ediv_le_ediv hp (show b.nsec ≤ 999999999 by omega)
    simp only [List.length_cons] at hg ⊢
    omega

/-- A run as in `C95_rate_any` and `C95_per_second`, with the period of `C95_rate_violated`: four periods begin in a second, and as many calls may return. -/
example : [⟨0, 333333333⟩, ⟨0, 666666666⟩, ⟨0, 999999999⟩, ⟨1, 333333332⟩, ⟨1, 333333333⟩].Pairwise (LaterPeriod 333333333) ∧ (999999999 / 333333333 + 1 : Int) = 4 :=
  ⟨C95_rate_any C95_rate_violated (by decide) (by decide) (by decide) (by decide), by decide⟩

end Wdns
