import Verif.Model.Misc

/-!
# C95: time arithmetic and the rate limiter
-/

namespace Wdns
open Outcome

namespace Spec

/-- The instant, or the span of time, in nanoseconds. -/
def nanos (t : Timespec) : Int := t.sec * 1000000000 + t.nsec

/-- A `struct timespec` as POSIX wants it. -/
def Normal (t : Timespec) : Prop := 0 ≤ t.nsec ∧ t.nsec < 1000000000

instance (t : Timespec) : Decidable (Normal t) := inferInstanceAs (Decidable (_ ∧ _))

end Spec

open Spec

theorem i64_ok {v : Int} (h1 : -2 ^ 63 ≤ v) (h2 : v < 2 ^ 63) : i64 v = ok v := if_pos ⟨h1, h2⟩

theorem tsCarry_eq : ∀ (fuel : Nat) (t : Timespec), 0 ≤ t.nsec → t.nsec < 1000000000 * fuel → -2 ^ 63 ≤ t.sec →
    t.sec + t.nsec / 1000000000 < 2 ^ 63 → tsCarry fuel t = ok ⟨t.sec + t.nsec / 1000000000, t.nsec % 1000000000⟩ := by
  intro fuel
  induction fuel with
  | zero => intro t h1 h2; omega
  | succ fuel ih =>
    intro t h1 h2 h3 h4
    rw [tsCarry]
    by_cases h : t.nsec ≥ 1000000000
    · rw [if_pos h, i64_ok (by omega) (by omega), ok_bind, ih _ (by dsimp only; omega) (by dsimp only; omega) (by dsimp only; omega)
        (by dsimp only; omega)]
      dsimp only
      congr 2 <;> omega
    · rw [if_neg h]
      congr 1
      obtain ⟨a, b⟩ := t
      dsimp only at *
      congr 1 <;> omega

/-- Addition is exact for every pair of times whose seconds do not overflow. -/
theorem C95_add {a b : Timespec} (ha : Normal a) (hb : Normal b) (h1 : -2 ^ 63 ≤ b.sec + a.sec) (h2 : b.sec + a.sec + 1 < 2 ^ 63) :
    ∃ r, tsAdd a b = ok r ∧ Normal r ∧ nanos r = nanos a + nanos b := by
  unfold Normal at ha hb
  refine ⟨⟨b.sec + a.sec + (b.nsec + a.nsec) / 1000000000, (b.nsec + a.nsec) % 1000000000⟩, ?_, ?_, ?_⟩
  · unfold tsAdd
    rw [i64_ok (by omega) (by omega), ok_bind, i64_ok (by omega) (by omega), ok_bind, tsCarry_eq] <;> dsimp only <;> omega
  · unfold Normal; dsimp only; omega
  · unfold nanos; dsimp only; omega

/-- So is subtraction. -/
theorem C95_sub {a b : Timespec} (ha : Normal a) (hb : Normal b) (h1 : -2 ^ 63 ≤ b.sec - a.sec - 1) (h2 : b.sec - a.sec < 2 ^ 63) :
    ∃ r, tsSub a b = ok r ∧ Normal r ∧ nanos r = nanos b - nanos a := by
  unfold Normal at ha hb
  unfold tsSub
  rw [i64_ok (by omega) (by omega), ok_bind, i64_ok (by omega) (by omega), ok_bind]
  by_cases h : b.nsec - a.nsec < 0
  · rw [if_pos h, i64_ok (by omega) (by omega), ok_bind, i64_ok (by omega) (by omega), ok_bind]
    exact ⟨_, rfl, by unfold Normal; dsimp only; omega, by unfold nanos; dsimp only; omega⟩
  · rw [if_neg h]
    exact ⟨_, rfl, by unfold Normal; dsimp only; omega, by unfold nanos; dsimp only; omega⟩

/-- A case of `C95_add` and `C95_sub`: a carry and a borrow. -/
example : tsAdd ⟨1, 600000000⟩ ⟨2, 700000000⟩ = ok ⟨4, 300000000⟩ ∧ tsSub ⟨1, 600000000⟩ ⟨4, 300000000⟩ = ok ⟨2, 700000000⟩ ∧
    Normal ⟨1, 600000000⟩ ∧ Normal ⟨4, 300000000⟩ := by unfold Normal; decide +kernel

theorem emod_le {a b : Int} (h : 0 ≤ a) (hb : 0 < b) : a % b ≤ a := by
  have h1 := Int.emod_add_mul_ediv a b
  have h2 : 0 ≤ a / b := Int.ediv_nonneg h (by omega)
  have h3 : 0 ≤ b * (a / b) := Int.mul_nonneg (by omega) h2
  omega

theorem calcNextTick_eq {t m : Timespec} (ht : Normal t) (hm : Normal m) (hs : 0 ≤ t.sec) (hms : 0 ≤ m.sec) (hr : t.sec + m.sec + 2 < 2 ^ 63) :
    calcNextTick t m =
      (let s := if m.sec > 0 then t.sec - t.sec % m.sec + m.sec else t.sec
       let n := if m.nsec > 0 then t.nsec - t.nsec % m.nsec + m.nsec else 0
       ok ⟨s + n / 1000000000, n % 1000000000⟩) := by
  unfold Normal at ht hm
  have k : ∀ a b : Int, 0 ≤ a → 0 < b → 0 ≤ a % b ∧ a % b ≤ a ∧ a % b < b := fun a b h1 h2 =>
    ⟨Int.emod_nonneg _ (by omega), emod_le h1 h2, Int.emod_lt_of_pos _ h2⟩
  have e1 : tickPart t.sec m.sec t.sec = ok (if m.sec > 0 then t.sec - t.sec % m.sec + m.sec else t.sec) := by
    unfold tickPart
    by_cases h : m.sec > 0
    · obtain ⟨a, b, c⟩ := k t.sec m.sec hs h
      rw [if_pos h, if_pos h, Int.tmod_eq_emod_of_nonneg hs, i64_ok (by omega) (by omega), ok_bind, i64_ok (by omega) (by omega)]
    · rw [if_neg h, if_neg h]
  have e2 : tickPart t.nsec m.nsec 0 = ok (if m.nsec > 0 then t.nsec - t.nsec % m.nsec + m.nsec else 0) := by
    unfold tickPart
    by_cases h : m.nsec > 0
    · obtain ⟨a, b, c⟩ := k t.nsec m.nsec ht.1 h
      rw [if_pos h, if_pos h, Int.tmod_eq_emod_of_nonneg ht.1, i64_ok (by omega) (by omega), ok_bind, i64_ok (by omega) (by omega)]
    · rw [if_neg h, if_neg h]
  have hsec : 0 ≤ (if m.sec > 0 then t.sec - t.sec % m.sec + m.sec else t.sec) ∧
      (if m.sec > 0 then t.sec - t.sec % m.sec + m.sec else t.sec) ≤ t.sec + m.sec := by
    split
    · rename_i h; obtain ⟨a, b, c⟩ := k t.sec m.sec hs h; omega
    · omega
  have hns : 0 ≤ (if m.nsec > 0 then t.nsec - t.nsec % m.nsec + m.nsec else 0) ∧
      (if m.nsec > 0 then t.nsec - t.nsec % m.nsec + m.nsec else 0) < 2000000000 := by
    split
    · rename_i h; obtain ⟨a, b, c⟩ := k t.nsec m.nsec ht.1 h; omega
    · omega
  unfold calcNextTick
  rw [e1, ok_bind, e2, ok_bind]
  dsimp only
  generalize (if m.sec > 0 then t.sec - t.sec % m.sec + m.sec else t.sec) = s at *
  generalize (if m.nsec > 0 then t.nsec - t.nsec % m.nsec + m.nsec else 0) = n at *
  rw [tsCarry_eq] <;> dsimp only <;> omega

/-- The next tick is in the future, and at most one period away. -/
theorem C95_next_tick {t m : Timespec} (ht : Normal t) (hm : Normal m) (hs : 0 ≤ t.sec) (hms : 0 ≤ m.sec) (hp : 0 < nanos m)
    (hr : t.sec + m.sec + 2 < 2 ^ 63) :
    ∃ r, calcNextTick t m = ok r ∧ Normal r ∧ nanos t < nanos r ∧ nanos r ≤ nanos t + nanos m ∧ t.sec ≤ r.sec := by
  refine ⟨_, calcNextTick_eq ht hm hs hms hr, ?_⟩
  have k : ∀ a b : Int, 0 ≤ a → 0 < b → 0 ≤ a % b ∧ a % b ≤ a ∧ a % b < b := fun a b h1 h2 =>
    ⟨Int.emod_nonneg _ (by omega), emod_le h1 h2, Int.emod_lt_of_pos _ h2⟩
  unfold Normal nanos at *
  dsimp only
  by_cases h1 : m.sec > 0
  · have := k t.sec m.sec hs h1
    rw [if_pos h1]
    by_cases h2 : m.nsec > 0
    · have := k t.nsec m.nsec ht.1 h2
      rw [if_pos h2]
      omega
    · rw [if_neg h2]
      omega
  · rw [if_neg h1]
    by_cases h2 : m.nsec > 0
    · have := k t.nsec m.nsec ht.1 h2
      rw [if_pos h2]
      omega
    · omega

/-- If a second is a whole number of periods, the next tick is the first multiple of the period in the future. -/
theorem C95_aligned {t m : Timespec} (ht : Normal t) (hm : Normal m) (hs : 0 ≤ t.sec) (hms : 0 ≤ m.sec)
    (hd : nanos m ∣ 1000000000) (hr : t.sec + m.sec + 2 < 2 ^ 63) :
    ∃ r, calcNextTick t m = ok r ∧ Normal r ∧ nanos r = (nanos t / nanos m + 1) * nanos m := by
  obtain ⟨q, hq⟩ := hd
  have hle : nanos m ≤ 1000000000 := Int.le_of_dvd (by decide) ⟨q, hq⟩
  have hpos : 0 < nanos m := by
    have hn : 0 ≤ nanos m := by unfold nanos Normal at *; omega
    rcases Int.lt_or_eq_of_le hn with h | h
    · exact h
    · rw [← h] at hq; omega
  refine ⟨_, calcNextTick_eq ht hm hs hms hr, ?_⟩
  by_cases h1 : m.sec > 0
  · have e1 : m.sec = 1 ∧ m.nsec = 0 := by unfold nanos Normal at *; omega
    have e2 : nanos m = 1000000000 := by unfold nanos; omega
    rw [if_pos h1, if_neg (by omega), e1.1, Int.emod_one, e2]
    unfold nanos Normal at *
    dsimp only
    omega
  · have e1 : m.sec = 0 := by omega
    have e2 : nanos m = m.nsec := by unfold nanos; omega
    have h2 : m.nsec > 0 := by omega
    rw [if_neg h1, if_pos h2]
    rw [e2] at hq ⊢
    have hdiv : nanos t / m.nsec = t.sec * q + t.nsec / m.nsec := by
      unfold nanos
      rw [hq, show t.sec * (m.nsec * q) + t.nsec = t.nsec + (t.sec * q) * m.nsec by
        rw [Int.mul_comm m.nsec q, ← Int.mul_assoc, Int.add_comm], Int.add_mul_ediv_right _ _ (by omega), Int.add_comm]
    have hmul : (t.sec * q) * m.nsec = t.sec * 1000000000 := by
      rw [hq, Int.mul_comm m.nsec q, Int.mul_assoc]
    have hsub : t.nsec - t.nsec % m.nsec = (t.nsec / m.nsec) * m.nsec := by
      have := Int.emod_add_mul_ediv t.nsec m.nsec
      rw [Int.mul_comm] at this
      omega
    constructor
    · unfold Normal; dsimp only; omega
    · rw [hdiv, Int.add_mul, Int.add_mul, hmul, Int.one_mul, hsub]
      unfold nanos
      dsimp only
      omega

/-- A case of `C95_aligned`: ten ticks a second. -/
example : ∃ r, calcNextTick ⟨7, 350000000⟩ ⟨0, 100000000⟩ = ok r ∧ nanos r = 7400000000 := by
  obtain ⟨r, h, -, hn⟩ := C95_aligned (t := ⟨7, 350000000⟩) (m := ⟨0, 100000000⟩) (by unfold Normal; decide) (by unfold Normal; decide) (by decide) (by decide) ⟨10, by decide⟩ (by decide)
  exact ⟨r, h, hn.trans (by decide)⟩

/-- Calls of `my_rate_sleep` one after another, without the adjustment (`freq` 0): the times at which they return.  The clock does not go back, and
the sleep does not end before the time it was to end at. -/
inductive Calls : Timespec → Rate → List Timespec → Prop
  | done (t : Timespec) (r : Rate) : Calls t r []
  | call {t : Timespec} {r r' : Rate} {rets : List Timespec} (now wake adj : Timespec) (tick : Option Timespec)
      (hn : Normal now) (hw : Normal wake) (h0 : nanos t ≤ nanos now) (h1 : nanos now ≤ nanos wake) (hr : wake.sec < 2 ^ 33)
      (e : rateSleep r now wake adj = ok (tick, r')) (h2 : ∀ u, tick = some u → nanos u ≤ nanos wake)
      (h : Calls (if tick = none then now else wake) r' rets) : Calls t r ((if tick = none then now else wake) :: rets)

theorem rateSleep_ok {r : Rate} {now wake adj : Timespec} (hf : r.freq = 0) (hc : r.count + 1 < 2 ^ 64)
    (hp : Normal r.period) (hps : 0 ≤ r.period.sec) (hpl : r.period.sec ≤ 1) (hpos : 0 < nanos r.period)
    (hn : Normal now) (hw : Normal wake) (hs : 0 ≤ now.sec) (hnw : nanos now ≤ nanos wake) (hr : wake.sec < 2 ^ 33)
    (ht : r.count ≠ 0 → Normal r.nextTick ∧ 0 ≤ r.nextTick.sec ∧ r.nextTick.sec < 2 ^ 33 + 3) :
    ∃ k next, (if r.count = 0 then calcNextTick now r.period = ok k else k = r.nextTick) ∧
      calcNextTick (if nanos now < nanos k then wake else now) r.period = ok next ∧
      rateSleep r now wake adj = ok (if nanos now < nanos k then some k else none,
        { r with count := r.count + 1, start := if r.count = 0 then now else r.start, nextTick := next }) := by
  have hws : now.sec ≤ wake.sec := by unfold nanos Normal at *; omega
  obtain ⟨k1, hk1, hkn, hkl, hkh, hks⟩ := C95_next_tick hn hp hs hps hpos (by omega)
  have hk : ∃ k, (if r.count = 0 then calcNextTick now r.period = ok k else k = r.nextTick) ∧ Normal k ∧ 0 ≤ k.sec ∧ k.sec < 2 ^ 33 + 3 := by
    by_cases h : r.count = 0
    · exact ⟨k1, by rw [if_pos h]; exact hk1, hkn, by unfold nanos Normal at *; omega, by unfold nanos Normal at *; omega⟩
    · exact ⟨r.nextTick, by rw [if_neg h], ht h⟩
  obtain ⟨k, hk, kn, k0, kh⟩ := hk
  obtain ⟨d, hd1, hd2, hd3⟩ := C95_sub (a := now) (b := k) hn kn (by omega) (by omega)
  have hdn : tsNanos d = ok (nanos d) := by
    unfold tsNanos
    have : -(2:Int)^33 - 4 ≤ d.sec ∧ d.sec ≤ 2^33 + 3 := by unfold nanos Normal at *; omega
    unfold Normal at hd2
    rw [i64_ok (by omega) (by omega), ok_bind, i64_ok (by omega) (by omega)]
    rfl
  have hafter : ∃ next, calcNextTick (if nanos now < nanos k then wake else now) r.period = ok next := by
    split
    · obtain ⟨n, h, _⟩ := C95_next_tick hw hp (by omega) hps hpos (by omega)
      exact ⟨n, h⟩
    · exact ⟨k1, hk1⟩
  obtain ⟨next, hnext⟩ := hafter
  refine ⟨k, next, hk, hnext, ?_⟩
  have hcm : (r.count + 1) % 2 ^ 64 = r.count + 1 := Nat.mod_eq_of_lt hc
  have hstart : rateStart { r with count := (r.count + 1) % 2 ^ 64 } now =
      ok { r with count := r.count + 1, start := if r.count = 0 then now else r.start, nextTick := k } := by
    unfold rateStart
    rw [hcm]
    by_cases h : r.count = 0
    · rw [if_pos h] at hk
      rw [if_pos (by dsimp only; omega), hk, if_pos h, ok_bind]
    · rw [if_neg h] at hk
      rw [if_neg (by dsimp only; omega), if_neg h, hk]
  have hadj : ∀ r' : Rate, r'.freq = 0 → rateAdjust r' now adj = ok r' := by
    intro r' h; unfold rateAdjust; rw [if_neg (by simp [h])]
  unfold rateSleep
  rw [hstart, ok_bind, hadj ⟨k, r.period, if r.count = 0 then now else r.start, r.count + 1, r.freq⟩ hf, ok_bind, hd1, ok_bind, hdn, ok_bind]
  have hg : (nanos d > 0) = (nanos now < nanos k) := by simp only [eq_iff_iff]; omega
  simp only [hg]
  rw [hnext, ok_bind]

theorem calls_spec {t : Timespec} {r : Rate} {rets : List Timespec} (h : Calls t r rets) (hf : r.freq = 0) (hc : r.count + rets.length < 2 ^ 64)
    (hp : Normal r.period) (hps : 0 ≤ r.period.sec) (hd : nanos r.period ∣ 1000000000) (ht0 : 0 ≤ nanos t)
    (hk : r.count ≠ 0 → Normal r.nextTick ∧ Normal t ∧ t.sec < 2 ^ 33 ∧ nanos r.nextTick = (nanos t / nanos r.period + 1) * nanos r.period) :
    rets.Pairwise (fun a b => nanos a / nanos r.period < nanos b / nanos r.period) ∧
      (r.count ≠ 0 → ∀ x ∈ rets, nanos t / nanos r.period < nanos x / nanos r.period) := by
  have hle : nanos r.period ≤ 1000000000 := Int.le_of_dvd (by decide) hd
  have hpos : 0 < nanos r.period := by
    have hn : 0 ≤ nanos r.period := by unfold nanos Normal at *; omega
    rcases Int.lt_or_eq_of_le hn with h | h
    · exact h
    · rw [← h] at hd; obtain ⟨q, hq⟩ := hd; omega
  induction h with
  | done => exact ⟨.nil, by simp⟩
  | @call t r r' rets now wake adj tick hn hw h0 h1 hr e h2 hcalls ih =>
    have hpl : r.period.sec ≤ 1 := by unfold nanos Normal at *; omega
    have hs : 0 ≤ now.sec := by unfold nanos Normal at *; omega
    have hws : now.sec ≤ wake.sec := by unfold nanos Normal at *; omega
    rw [List.length_cons] at hc
    obtain ⟨k, next, k1, k2, k3⟩ := rateSleep_ok (adj := adj) hf (by omega) hp hps hpl hpos hn hw hs h1 hr (by
      intro hcnt
      obtain ⟨a, b, c, d⟩ := hk hcnt
      refine ⟨a, ?_⟩
      have e1 : nanos t < nanos r.nextTick := by
        rw [d]; exact Int.lt_ediv_add_one_mul_self _ hpos
      have e2 : nanos r.nextTick ≤ nanos t + nanos r.period := by
        rw [d, Int.add_mul, Int.one_mul]
        have := Int.ediv_mul_le (nanos t) (show nanos r.period ≠ 0 by omega)
        omega
      unfold nanos Normal at *
      omega)
    rw [e] at k3
    simp only [ok.injEq, Prod.mk.injEq] at k3
    obtain ⟨rfl, rfl⟩ := k3
    have hret : (if (if nanos now < nanos k then some k else none) = none then now else wake) = (if nanos now < nanos k then wake else now) := by
      by_cases hl : nanos now < nanos k
      · rw [if_pos hl, if_pos hl, if_neg (by simp)]
      · rw [if_neg hl, if_neg hl, if_pos rfl]
    rw [hret] at hcalls ih ⊢
    generalize hret' : (if nanos now < nanos k then wake else now) = ret at *
    have hge : nanos k ≤ nanos ret := by
      rw [← hret']
      by_cases hl : nanos now < nanos k
      · rw [if_pos hl]; exact h2 k (if_pos hl)
      · rw [if_neg hl]; omega
    have hretN : Normal ret ∧ 0 ≤ ret.sec ∧ ret.sec < 2 ^ 33 ∧ 0 ≤ nanos ret := by
      rw [← hret']
      split
      · exact ⟨hw, by omega, hr, by omega⟩
      · exact ⟨hn, hs, by omega, by omega⟩
    obtain ⟨next', n1, n2, n3⟩ := C95_aligned hretN.1 hp hretN.2.1 hps hd (by omega)
    rw [k2] at n1
    obtain rfl := ok.inj n1
    have ih' := ih hf (by dsimp only; omega) hp hps hd hretN.2.2.2 (by
      intro _
      exact ⟨n2, hretN.1, hretN.2.2.1, n3⟩) hle hpos
    dsimp only at ih'
    obtain ⟨p1, p2⟩ := ih'
    have p2' := p2 (by omega)
    refine ⟨List.pairwise_cons.mpr ⟨p2', p1⟩, ?_⟩
    intro hcnt
    rw [if_neg hcnt] at k1
    obtain ⟨_, _, _, d⟩ := hk hcnt
    have hfirst : nanos t / nanos r.period < nanos ret / nanos r.period := by
      rw [k1, d] at hge
      have := (Int.le_ediv_iff_mul_le hpos).mpr hge
      omega
    intro x hx
    rcases List.mem_cons.mp hx with rfl | hx
    · exact hfirst
    · exact Int.lt_trans hfirst (p2' x hx)

/-- A fresh rate limiter — libmy/my_rate.c:95-112 (the period of `1.0 / rate` is a parameter). -/
def Rate.fresh (period : Timespec) (freq : Nat) : Rate := ⟨⟨0, 0⟩, period, ⟨0, 0⟩, 0, freq⟩

/-- If a second is a whole number of periods, calls never return twice in the same period. -/
theorem C95_rate {t period : Timespec} {rets : List Timespec} (h : Calls t (Rate.fresh period 0) rets) (hc : rets.length < 2 ^ 64)
    (hp : Normal period) (hps : 0 ≤ period.sec) (hd : nanos period ∣ 1000000000) (ht0 : 0 ≤ nanos t) :
    rets.Pairwise (fun a b => nanos a / nanos period < nanos b / nanos period) :=
  (calls_spec h rfl (by show 0 + _ < _; omega) hp hps hd ht0 (fun h => absurd rfl h)).1

theorem pairwise_gap (f : Timespec → Int) : ∀ {l : List Timespec}, l.Pairwise (fun a b => f a < f b) → ∀ {i n : Nat} {a b : Timespec},
    l[i]? = some a → l[i + n]? = some b → f a + n ≤ f b := by
  intro l hl i n
  induction n with
  | zero => intro a b h1 h2; rw [Nat.add_zero, h1] at h2; cases h2; simp
  | succ n ih =>
    intro a b h1 h2
    obtain ⟨hlt, h2'⟩ := List.getElem?_eq_some_iff.mp h2
    have h3 : l[i + n]? = some l[i + n] := List.getElem?_eq_getElem (by omega)
    have := ih h1 h3
    have h4 := List.pairwise_iff_getElem.mp hl (i + n) (i + (n + 1)) (by omega) hlt (by omega)
    rw [h2'] at h4
    omega

/-- So `n + 1` calls in a row take at least `n - 1` whole periods: the rate is kept over every window. -/
theorem C95_limit {t period : Timespec} {rets : List Timespec} (h : Calls t (Rate.fresh period 0) rets) (hc : rets.length < 2 ^ 64)
    (hp : Normal period) (hps : 0 ≤ period.sec) (hd : nanos period ∣ 1000000000) (ht0 : 0 ≤ nanos t) {i n : Nat} {a b : Timespec}
    (ha : rets[i]? = some a) (hb : rets[i + n]? = some b) : ((n : Int) - 1) * nanos period < nanos b - nanos a := by
  have hpos : 0 < nanos period := by
    have hn : 0 ≤ nanos period := by unfold nanos Normal at *; omega
    rcases Int.lt_or_eq_of_le hn with h | h
    · exact h
    · rw [← h] at hd; obtain ⟨q, hq⟩ := hd; omega
  have h1 := pairwise_gap (fun x => nanos x / nanos period) (C95_rate h hc hp hps hd ht0) ha hb
  have h2 := Int.lt_ediv_add_one_mul_self (nanos a) hpos
  have h3 := Int.ediv_mul_le (nanos b) (show nanos period ≠ 0 by omega)
  have h4 : (nanos a / nanos period + n) * nanos period ≤ nanos b / nanos period * nanos period :=
    Int.mul_le_mul_of_nonneg_right h1 (by omega)
  rw [Int.add_mul] at h4 h2
  rw [Int.sub_mul]
  omega

/-- Three events a second: the period is 333333333 nanoseconds, ticks are counted from the beginning of the second, and what is carried into the
next second is a tick of its own.  Five calls return within one second, the last two one nanosecond apart. -/
theorem C95_rate_violated : Calls ⟨0, 5⟩ (Rate.fresh ⟨0, 333333333⟩ 0)
    [⟨0, 333333333⟩, ⟨0, 666666666⟩, ⟨0, 999999999⟩, ⟨1, 333333332⟩, ⟨1, 333333333⟩] := by
  have s : ∀ {t : Timespec} {r r' : Rate} {rets : List Timespec} (now k : Timespec), Normal now → Normal k → nanos t ≤ nanos now →
      nanos now ≤ nanos k → k.sec < 2 ^ 33 → rateSleep r now k ⟨0, 0⟩ = ok (some k, r') → Calls k r' rets → Calls t r (k :: rets) := by
    intro t r r' rets now k h1 h2 h3 h4 h5 h6 h7
    exact .call now k ⟨0, 0⟩ (some k) h1 h2 h3 h4 h5 h6 (by intro u hu; cases hu; exact Int.le_refl _) h7
  refine s ⟨0, 5⟩ _ (by decide) (by decide) (by decide) (by decide) (by decide) (r' := ⟨⟨0, 666666666⟩, ⟨0, 333333333⟩, ⟨0, 5⟩, 1, 0⟩)
    (by decide +kernel) ?_
  refine s ⟨0, 333333333⟩ _ (by decide) (by decide) (by decide) (by decide) (by decide) (r' := ⟨⟨0, 999999999⟩, ⟨0, 333333333⟩, ⟨0, 5⟩, 2, 0⟩)
    (by decide +kernel) ?_
  refine s ⟨0, 666666666⟩ _ (by decide) (by decide) (by decide) (by decide) (by decide) (r' := ⟨⟨1, 333333332⟩, ⟨0, 333333333⟩, ⟨0, 5⟩, 3, 0⟩)
    (by decide +kernel) ?_
  refine s ⟨0, 999999999⟩ _ (by decide) (by decide) (by decide) (by decide) (by decide) (r' := ⟨⟨1, 333333333⟩, ⟨0, 333333333⟩, ⟨0, 5⟩, 4, 0⟩)
    (by decide +kernel) ?_
  exact s ⟨1, 333333332⟩ _ (by decide) (by decide) (by decide) (by decide) (by decide) (r' := ⟨⟨1, 666666666⟩, ⟨0, 333333333⟩, ⟨0, 5⟩, 5, 0⟩)
    (by decide +kernel) (.done _ _)

/-- With a period of 0 there is no limit: the tick is never in the future. -/
theorem C95_no_limit {t : Timespec} (ht : Normal t) (hs : 0 ≤ t.sec) (hr : t.sec + 2 < 2 ^ 63) :
    ∃ r, calcNextTick t ⟨0, 0⟩ = ok r ∧ nanos r ≤ nanos t := by
  refine ⟨_, calcNextTick_eq ht (by decide) hs (by decide) (by simpa using hr), ?_⟩
  unfold nanos Normal at *
  dsimp only
  rw [if_neg (by decide), if_neg (by decide)]
  omega

/-- Ten a second, a run of the kind `C95_rate` speaks about: one sleeping call, one that is late, one sleeping. -/
example : Calls ⟨7, 5⟩ (Rate.fresh ⟨0, 100000000⟩ 0) [⟨7, 100000001⟩, ⟨7, 350000000⟩, ⟨7, 400000000⟩] ∧ nanos ⟨0, 100000000⟩ ∣ 1000000000 := by
  refine ⟨?_, ⟨10, by decide⟩⟩
  refine .call (r' := ⟨⟨7, 200000000⟩, ⟨0, 100000000⟩, ⟨7, 5⟩, 1, 0⟩) ⟨7, 5⟩ ⟨7, 100000001⟩ ⟨0, 0⟩ (some ⟨7, 100000000⟩) (by decide) (by decide)
    (by decide) (by decide) (by decide) (by decide +kernel) (by intro u hu; cases hu; decide) ?_
  refine .call (r' := ⟨⟨7, 400000000⟩, ⟨0, 100000000⟩, ⟨7, 5⟩, 2, 0⟩) ⟨7, 350000000⟩ ⟨7, 350000000⟩ ⟨0, 0⟩ none (by decide) (by decide)
    (by decide) (by decide) (by decide) (by decide +kernel) (by intro u hu; cases hu) ?_
  refine .call (r' := ⟨⟨7, 500000000⟩, ⟨0, 100000000⟩, ⟨7, 5⟩, 3, 0⟩) ⟨7, 350000001⟩ ⟨7, 400000000⟩ ⟨0, 0⟩ (some ⟨7, 400000000⟩) (by decide) (by decide)
    (by decide) (by decide) (by decide) (by decide +kernel) (by intro u hu; cases hu; decide) (.done _ _)

end Wdns
