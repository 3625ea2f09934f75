import Verif.Props.RateAny

/-!
# `my_rate_sleep` with the adjustment of the period (C95)
-/

namespace Wdns
open Outcome Spec

namespace Spec

/-- Calls of `my_rate_sleep` one after another, with or without the adjustment: for each the time at which it returns and the period, in nanoseconds, that is in force from then on.
Whatever the floating-point arithmetic of the adjustment gives, it is a period below a second.  The clock does not go back, and the sleep does not end before the time it was
to end at. -/
inductive CallsAdj : Timespec → Rate → List (Timespec × Int) → Prop
  | done (t : Timespec) (r : Rate) : CallsAdj t r []
  | call {t : Timespec} {r r' : Rate} {rets : List (Timespec × Int)} (now wake : Timespec) (adj : Int) (tick : Option Timespec)
      (hn : Normal now) (hw : Normal wake) (h0 : nanos t ≤ nanos now) (h1 : nanos now ≤ nanos wake) (hr : wake.sec < 2 ^ 33) (ha : 0 < adj) (ha1 : adj < 1000000000)
      (e : rateSleep r now wake ⟨0, adj⟩ = ok (tick, r')) (h2 : ∀ u, tick = some u → nanos u ≤ nanos wake)
      (h : CallsAdj (if tick = none then now else wake) r' rets) : CallsAdj t r (((if tick = none then now else wake), r'.period.nsec) :: rets)

/-- Each call returns in a later period than the one before, periods being of the length in force when that returned. -/
def Spaced : List (Timespec × Int) → Prop
  | a :: b :: l => LaterPeriod a.2 a.1 b.1 ∧ Spaced (b :: l)
  | _ => True

end Spec

theorem rateSleep_period {r r' : Rate} {now wake adj : Timespec} {tick} (hc : r.count + 1 < 2 ^ 64) (e : rateSleep r now wake adj = ok (tick, r')) :
    ∃ p, (p = r.period ∨ p = adj) ∧ r'.period = p ∧ r'.freq = r.freq ∧
      rateSleep { r with freq := 0, period := p } now wake adj = ok (tick, { r' with freq := 0 }) := by
  unfold rateSleep rateStart rateAdjust at e
  have hm : (r.count + 1) % 2 ^ 64 = r.count + 1 := Nat.mod_eq_of_lt hc
  dsimp only at e
  rw [hm] at e
  unfold rateSleep rateStart rateAdjust
  simp only [hm]
  by_cases h1 : r.count + 1 = 1
  · rw [if_pos h1] at e
    obtain ⟨s, e1, e⟩ := bind_eq_ok.mp e
    obtain ⟨k, e2, e3⟩ := bind_eq_ok.mp e1
    cases e3
    obtain ⟨s2, e4, e⟩ := bind_eq_ok.mp e
    dsimp only at e4
    rw [if_neg (by omega)] at e4
    cases e4
    obtain ⟨til, e5, e⟩ := bind_eq_ok.mp e
    obtain ⟨ns, e6, e⟩ := bind_eq_ok.mp e
    obtain ⟨nx, e7, e⟩ := bind_eq_ok.mp e
    dsimp only at e5 e7 e
    simp only [ok.injEq, Prod.mk.injEq] at e
    obtain ⟨rfl, rfl⟩ := e
    refine ⟨r.period, .inl rfl, rfl, rfl, ?_⟩
    rw [if_pos h1]
    simp only [e2, ok_bind, ne_eq, not_true_eq_false, false_and, if_false, e5, e6, e7]
  · rw [if_neg h1, ok_bind] at e
    obtain ⟨s2, e4, e⟩ := bind_eq_ok.mp e
    obtain ⟨til, e5, e⟩ := bind_eq_ok.mp e
    obtain ⟨ns, e6, e⟩ := bind_eq_ok.mp e
    obtain ⟨nx, e7, e⟩ := bind_eq_ok.mp e
    simp only [ok.injEq, Prod.mk.injEq] at e
    obtain ⟨rfl, rfl⟩ := e
    by_cases ha : r.freq ≠ 0 ∧ (r.count + 1) % r.freq = 0 ∧ r.count + 1 > r.freq
    · rw [if_pos ha] at e4
      obtain ⟨_, _, e4⟩ := bind_eq_ok.mp e4
      obtain ⟨ns', _, e4⟩ := bind_eq_ok.mp e4
      by_cases hz : ns' = 0
      · rw [if_pos hz] at e4; cases e4
      rw [if_neg hz] at e4
      cases e4
      refine ⟨adj, .inr rfl, rfl, rfl, ?_⟩
      rw [if_neg h1]
      simp only [ok_bind, ne_eq, not_true_eq_false, false_and, if_false]
      dsimp only at e5 e7
      simp only [e5, ok_bind, e6, e7]
    · rw [if_neg ha] at e4
      cases e4
      refine ⟨r.period, .inl rfl, rfl, rfl, ?_⟩
      rw [if_neg h1]
      simp only [ok_bind, ne_eq, not_true_eq_false, false_and, if_false]
      dsimp only at e5 e7
      simp only [e5, ok_bind, e6, e7]

theorem callsAdj_spaced {t : Timespec} {r : Rate} {rets : List (Timespec × Int)} (h : CallsAdj t r rets) (hc : r.count + rets.length < 2 ^ 64)
    (hp : r.period.sec = 0) (hp0 : 0 < r.period.nsec) (hp1 : r.period.nsec < 1000000000) (ht0 : 0 ≤ nanos t)
    (hk : r.count ≠ 0 → Normal t ∧ t.sec < 2 ^ 33 ∧ calcNextTick t r.period = ok r.nextTick) :
    Spaced rets ∧ (r.count ≠ 0 → ∀ x ∈ rets.head?, LaterPeriod r.period.nsec t x.1) := by
  induction h with
  | done => exact ⟨trivial, by simp⟩
  | @call t r r' rets now wake adj tick hn hw h0 h1 hr ha ha1 e h2 hcalls ih =>
    have hs : 0 ≤ now.sec := by unfold nanos Normal at *; omega
    have hws : now.sec ≤ wake.sec := by unfold nanos Normal at *; omega
    have hpN : Normal r.period := by unfold Normal; omega
    have hpn : nanos r.period = r.period.nsec := by simp [nanos, hp]
    have hkt : r.count ≠ 0 → Normal r.nextTick ∧ nanos t < nanos r.nextTick ∧ nanos r.nextTick ≤ nanos t + r.period.nsec ∧ t.sec ≤ r.nextTick.sec ∧ 0 ≤ t.sec := by
      intro hcnt
      obtain ⟨a, b, c⟩ := hk hcnt
      have hts : 0 ≤ t.sec := by unfold nanos Normal at *; omega
      obtain ⟨x, x1, x2, x3, x4, x5⟩ := C95_next_tick a hpN hts (by omega) (by omega) (by omega)
      rw [c] at x1
      obtain rfl := ok.inj x1
      exact ⟨x2, x3, by omega, x5, hts⟩
    rw [List.length_cons] at hc
    obtain ⟨p, hpp, g1, g2, g3⟩ := rateSleep_period (by omega) e
    have hq : p.sec = 0 ∧ 0 < p.nsec ∧ p.nsec < 1000000000 := by
      rcases hpp with rfl | rfl
      · exact ⟨hp, hp0, hp1⟩
      · exact ⟨rfl, ha, ha1⟩
    have hqN : Normal p := by unfold Normal; omega
    have hqn : nanos p = p.nsec := by simp [nanos, hq.1]
    obtain ⟨k, next, k1, k2, k3⟩ := rateSleep_ok (r := { r with freq := 0, period := p }) (adj := ⟨0, adj⟩) rfl (by show r.count + 1 < _; omega) hqN (by show 0 ≤ p.sec; omega)
      (by show p.sec ≤ 1; omega) (by show 0 < nanos p; omega) hn hw hs h1 hr (by
      intro hcnt
      obtain ⟨a, b, c, d, e⟩ := hkt hcnt
      obtain ⟨a', b', -⟩ := hk hcnt
      refine ⟨a, by show 0 ≤ r.nextTick.sec; omega, ?_⟩
      show r.nextTick.sec < _
      unfold nanos Normal at *
      omega)
    rw [g3] at k3
    simp only [ok.injEq, Prod.mk.injEq] at k3
    obtain ⟨rfl, k4⟩ := k3
    dsimp only at k1 k2
    have kc : r'.count = r.count + 1 := congrArg Rate.count k4
    have kn : r'.nextTick = next := congrArg Rate.nextTick k4
    have hret : (if (if nanos now < nanos k then some k else none) = none then now else wake) = (if nanos now < nanos k then wake else now) := by
      by_cases hl : nanos now < nanos k
      · rw [if_pos hl, if_pos hl, if_neg (by simp)]
      · rw [if_neg hl, if_neg hl, if_pos rfl]
    rw [hret] at hcalls ih ⊢
    generalize hret' : (if nanos now < nanos k then wake else now) = ret at *
    have hge : nanos k ≤ nanos ret := by
      rw [← hret']
      by_cases hl : nanos now < nanos k
      · rw [if_pos hl]; exact h2 k (if_pos hl)
      · rw [if_neg hl]; omega
    have hretN : Normal ret ∧ 0 ≤ ret.sec ∧ ret.sec < 2 ^ 33 ∧ 0 ≤ nanos ret := by
      rw [← hret']
      split
      · exact ⟨hw, by omega, hr, by omega⟩
      · exact ⟨hn, hs, by omega, by omega⟩
    obtain ⟨p1, p2⟩ := ih (by omega) (by rw [g1]; exact hq.1) (by rw [g1]; exact hq.2.1) (by rw [g1]; exact hq.2.2) hretN.2.2.2
      fun _ => ⟨hretN.1, hretN.2.2.1, by rw [g1, kn]; exact k2⟩
    refine ⟨?_, ?_⟩
    · cases rets with
      | nil => trivial
      | cons y rets => exact ⟨p2 (by omega) y (by simp), p1⟩
    · intro hcnt x hx
      simp only [List.head?_cons, Option.mem_def, Option.some.injEq] at hx
      subst hx
      rw [if_neg hcnt] at k1
      obtain ⟨a, b, c, d, e'⟩ := hkt hcnt
      obtain ⟨a', b', c'⟩ := hk hcnt
      have hper : r.period = ⟨0, r.period.nsec⟩ := by
        rw [← hp]
      rw [hper] at c'
      exact laterPeriod_of_le hp0 (nextTick_later a' e' hp0 hp1 (by omega) c') a hretN.1 (by rw [← k1]; exact hge)

/-- **C95**: with the adjustment after every `freq` calls, whatever periods below a second it chooses: each call returns in a later period than the call before it, periods being
of the length in force when that one returned and counted anew in every second. -/
theorem C95_adjusted {t : Timespec} {p : Int} {freq : Nat} {rets : List (Timespec × Int)} (h : CallsAdj t (Rate.fresh ⟨0, p⟩ freq) rets) (hc : rets.length < 2 ^ 64)
    (hp : 0 < p) (hp1 : p < 1000000000) (ht0 : 0 ≤ nanos t) : Spaced rets :=
  (callsAdj_spaced h (by show 0 + _ < _; omega) rfl hp hp1 ht0 (fun h => absurd rfl h)).1

/-- A run as in `C95_adjusted`, adjusted at every call: the period is 0.3 s, then 0.4 s, then 0.35 s. -/
example : ∃ rets, CallsAdj ⟨0, 0⟩ (Rate.fresh ⟨0, 300000000⟩ 1) rets ∧
    rets = [(⟨0, 300000000⟩, 300000000), (⟨0, 600000000⟩, 400000000), (⟨0, 800000000⟩, 350000000)] :=
  ⟨_, .call (r' := ⟨⟨0, 600000000⟩, ⟨0, 300000000⟩, ⟨0, 0⟩, 1, 1⟩) ⟨0, 0⟩ ⟨0, 300000000⟩ 5 (some ⟨0, 300000000⟩) (by unfold Normal; decide) (by unfold Normal; decide) (by decide) (by decide)
      (by decide) (by decide) (by decide) (by decide +kernel) (by rintro _ ⟨⟩; decide)
    (.call (r' := ⟨⟨0, 800000000⟩, ⟨0, 400000000⟩, ⟨0, 0⟩, 2, 1⟩) ⟨0, 400000000⟩ ⟨0, 600000000⟩ 400000000 (some ⟨0, 600000000⟩) (by unfold Normal; decide) (by unfold Normal; decide)
      (by decide) (by decide) (by decide) (by decide) (by decide) (by decide +kernel) (by rintro _ ⟨⟩; decide)
    (.call (r' := ⟨⟨1, 50000000⟩, ⟨0, 350000000⟩, ⟨0, 0⟩, 3, 1⟩) ⟨0, 600000000⟩ ⟨0, 800000000⟩ 350000000 (some ⟨0, 800000000⟩) (by unfold Normal; decide) (by unfold Normal; decide)
      (by decide) (by decide) (by decide) (by decide) (by decide) (by decide +kernel) (by rintro _ ⟨⟩; decide)
    (.done _ _))), rfl⟩

/-- **C95**: a rate above 10^9 is a period of 0 nanoseconds, with which nothing is slept; if then the adjustment is due while the clock still shows the time of the first call, it divides
by zero and converts the result to an integer, which is undefined. -/
theorem C95_adjust_violated (now wake adj : Timespec) (hn : Normal now) (h0 : 0 ≤ now.sec) (hs : now.sec < 2 ^ 33) :
    ∃ r, rateSleep (Rate.fresh ⟨0, 0⟩ 1) now wake adj = ok (none, r) ∧ rateSleep r now wake adj = ub := by
  obtain ⟨s, n⟩ := now
  unfold Normal at hn
  dsimp only at hn h0 hs
  have i0 : ∀ {x : Int}, 0 ≤ x → x < 2 ^ 63 → i64 x = ok x := fun {x} a b => by unfold i64; rw [if_pos (by omega)]
  have ineg : ∀ {x : Int}, -(2 ^ 62) ≤ x → x < 2 ^ 62 → i64 x = ok x := fun {x} a b => by unfold i64; rw [if_pos (by omega)]
  have hk : calcNextTick ⟨s, n⟩ ⟨0, 0⟩ = ok ⟨s, 0⟩ := by
    simp [calcNextTick, tickPart, tsCarry]
  have hsub : ∃ til, tsSub ⟨s, n⟩ ⟨s, 0⟩ = ok til ∧ ∃ ns, tsNanos til = ok ns ∧ ¬ ns > 0 := by
    unfold tsSub
    dsimp only
    rw [show s - s = 0 by omega, i0 (by omega) (by omega), ok_bind, ineg (by omega) (by omega), ok_bind]
    by_cases hz : 0 - n < 0
    · rw [if_pos hz, ineg (by omega) (by omega), ok_bind, ineg (by omega) (by omega), ok_bind]
      refine ⟨_, rfl, _, by unfold tsNanos; dsimp only; rw [ineg (by omega) (by omega), ok_bind, ineg (by omega) (by omega)], by omega⟩
    · rw [if_neg hz]
      refine ⟨_, rfl, _, by unfold tsNanos; dsimp only; rw [ineg (by omega) (by omega), ok_bind, ineg (by omega) (by omega)], by omega⟩
  obtain ⟨til, t1, ns, t2, t3⟩ := hsub
  refine ⟨⟨⟨s, 0⟩, ⟨0, 0⟩, ⟨s, n⟩, 1, 1⟩, ?_, ?_⟩
  · simp [rateSleep, Rate.fresh, rateStart, rateAdjust, hk, t1, t2, t3]
  · have z1 : tsSub ⟨s, n⟩ ⟨s, n⟩ = ok ⟨0, 0⟩ := by simp [tsSub, i64]
    have z2 : tsNanos ⟨0, 0⟩ = ok 0 := by simp [tsNanos, i64]
    simp [rateSleep, rateStart, rateAdjust, z1, z2]

end Wdns
