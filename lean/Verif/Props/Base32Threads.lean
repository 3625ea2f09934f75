import Verif.Model.Base32Threads
import Verif.Props.Format
/-! # C75 — decoding base32hex in several threads -/

namespace Wdns
open Outcome Spec

/-- The table is filled below `n` with the right values. -/
def FilledTo (map : Nat → Nat) (n : Nat) : Prop :=
  (∀ i < n, i < 256 → map i = b32Map (UInt8.ofNat i))

/-- What the call would still return if the table were right from now on. -/
def pcResult (job : B32Job) : B32Pc → Option (List UInt8)
  | .start | .fill _ => base32Decode job.size job.text
  | .scan rest s pad out => b32DecodeLoop job.size rest s pad out
  | .done r => r

theorem b32Turn_result (job : B32Job) (cs : List UInt8) (s : List Nat) (pad : Bool) (out : List UInt8) :
    pcResult job (b32Turn job.size cs s pad out) =
      (if s.length = 8 ∨ pad ∨ cs = [] then
        let out := out ++ (b32Bytes s.length fun j => s.getD j 0).take (job.size - out.length)
        if out.length = job.size then some out else b32DecodeLoop job.size cs [] pad out
      else if out.length = job.size then some out else b32DecodeLoop job.size cs s pad out) := by
  unfold b32Turn
  by_cases h : s.length = 8 ∨ pad ∨ cs = []
  · rw [if_pos h, if_pos h]
    dsimp only
    split <;> rfl
  · rw [if_neg h, if_neg h]
    split <;> rfl

/-- A call keeps its result while the table is right. -/
theorem step_result (job : B32Job) (map : Nat → Nat) (pc : B32Pc) (h : FilledTo map 256) :
    pcResult job (b32Step job map pc).2 = pcResult job pc := by
  match pc with
  | .start => simp only [b32Step]; split <;> rfl
  | .fill i => simp only [b32Step]; split <;> rfl
  | .done r => rfl
  | .scan [] s pad out => rfl
  | .scan (c :: cs) s pad out =>
    have hc : map c.toNat = b32Map c := by
      rw [h c.toNat c.toNat_lt c.toNat_lt, UInt8.ofNat_toNat]
    simp only [b32Step]
    rw [hc]
    rw [show pcResult job (.scan (c :: cs) s pad out) = b32DecodeLoop job.size (c :: cs) s pad out from rfl, b32DecodeLoop.eq_def]
    by_cases h1 : c = 61
    · rw [if_pos h1]; dsimp only; rw [if_pos h1]; exact b32Turn_result _ _ _ _ _
    · rw [if_neg h1]; dsimp only; rw [if_neg h1]
      by_cases h2 : b32Map c = 255
      · rw [if_pos h2, if_pos h2]; rfl
      · rw [if_neg h2, if_neg h2]; exact b32Turn_result _ _ _ _ _

/-- Entries that are right stay right. -/
theorem step_filled (job : B32Job) (map : Nat → Nat) (pc : B32Pc) (n : Nat) (h : FilledTo map n) :
    FilledTo (b32Step job map pc).1 n := by
  match pc with
  | .start => simp only [b32Step]; split <;> exact h
  | .fill i =>
    simp only [b32Step]
    split
    · intro j hj h256
      dsimp only
      split
      · subst j; rfl
      · exact h j hj h256
    · exact h
  | .done r => exact h
  | .scan [] s pad out => exact h
  | .scan (c :: cs) s pad out =>
    simp only [b32Step]
    split
    · exact h
    · split <;> exact h

/-- The calls in a schedule other than `k` only fill in right entries and leave `k` where it is. -/
theorem run_filled (jobs : Nat → B32Job) (n : Nat) : ∀ (sched : List Nat) (y : B32Sys), FilledTo y.map n →
    FilledTo (b32Run jobs sched y).map n
  | [], _, h => h
  | k :: sched, y, h => run_filled jobs n sched _ (step_filled (jobs k) y.map (y.pc k) n h)

theorem run_append (jobs : Nat → B32Job) : ∀ (a b : List Nat) (y : B32Sys), b32Run jobs (a ++ b) y = b32Run jobs b (b32Run jobs a y)
  | [], _, _ => rfl
  | k :: a, b, y => run_append jobs a b _

theorem run_result (jobs : Nat → B32Job) (j : Nat) : ∀ (sched : List Nat) (y : B32Sys), FilledTo y.map 256 →
    pcResult (jobs j) ((b32Run jobs sched y).pc j) = pcResult (jobs j) (y.pc j)
  | [], _, _ => rfl
  | k :: sched, y, h => by
    rw [b32Run]
    rw [run_result jobs j sched _ (step_filled (jobs k) y.map (y.pc k) 256 h)]
    dsimp only
    split
    · subst j; exact step_result (jobs k) y.map (y.pc k) h
    · rfl

theorem run_idle (jobs : Nat → B32Job) (j : Nat) : ∀ (sched : List Nat) (y : B32Sys), j ∉ sched → (b32Run jobs sched y).pc j = y.pc j
  | [], _, _ => rfl
  | k :: sched, y, h => by
    rw [b32Run, run_idle jobs j sched _ (fun hx => h (by simp [hx]))]
    dsimp only
    rw [if_neg (fun e => h (by simp [e]))]

/-- A call that found the table empty is filling it, with right entries below where it is; or it has filled it, and its result is
the right one. -/
def Filler (job : B32Job) (map : Nat → Nat) (pc : B32Pc) : Prop :=
  (∃ i, pc = .fill i ∧ i ≤ 256 ∧ FilledTo map i) ∨
  ((∀ i, pc ≠ .fill i) ∧ pc ≠ .start ∧ FilledTo map 256 ∧ pcResult job pc = base32Decode job.size job.text)

theorem turn_shape (size : Nat) (cs : List UInt8) (s : List Nat) (pad : Bool) (out : List UInt8) :
    (∀ i, b32Turn size cs s pad out ≠ .fill i) ∧ b32Turn size cs s pad out ≠ .start := by
  unfold b32Turn
  split
  · dsimp only; split <;> simp
  · split <;> simp

theorem step_shape (job : B32Job) (map : Nat → Nat) (pc : B32Pc) (h1 : ∀ i, pc ≠ .fill i) (h2 : pc ≠ .start) :
    (∀ i, (b32Step job map pc).2 ≠ .fill i) ∧ (b32Step job map pc).2 ≠ .start := by
  match pc with
  | .start => exact absurd rfl h2
  | .fill i => exact absurd rfl (h1 i)
  | .done r => exact ⟨h1, h2⟩
  | .scan [] s pad out => simp [b32Step]
  | .scan (c :: cs) s pad out =>
    simp only [b32Step]
    split
    · exact turn_shape _ _ _ _ _
    · split
      · simp
      · exact turn_shape _ _ _ _ _

theorem step_filler (job : B32Job) (map : Nat → Nat) (pc : B32Pc) (h : Filler job map pc) :
    Filler job (b32Step job map pc).1 (b32Step job map pc).2 := by
  rcases h with ⟨i, rfl, hi, hf⟩ | ⟨h1, h2, hf, hr⟩
  · simp only [b32Step]
    by_cases h : i < 256
    · rw [if_pos h]
      refine Or.inl ⟨i + 1, rfl, h, ?_⟩
      intro j hj h256
      dsimp only
      split
      · subst j; rfl
      · exact hf j (by omega) h256
    · rw [if_neg h]
      have : i = 256 := by omega
      subst this
      exact Or.inr ⟨by simp, by simp, hf, rfl⟩
  · have hs := step_shape job map pc h1 h2
    exact Or.inr ⟨hs.1, hs.2, step_filled _ _ _ _ hf, by rw [step_result _ _ _ hf, hr]⟩

theorem run_filler (jobs : Nat → B32Job) (j : Nat) : ∀ (sched : List Nat) (y : B32Sys), Filler (jobs j) y.map (y.pc j) →
    Filler (jobs j) (b32Run jobs sched y).map ((b32Run jobs sched y).pc j)
  | [], _, h => h
  | k :: sched, y, h => by
    refine run_filler jobs j sched _ ?_
    dsimp only
    by_cases e : j = k
    · subst e; rw [if_pos rfl]; exact step_filler _ _ _ h
    · rw [if_neg e]
      rcases h with ⟨i, h1, h2, h3⟩ | ⟨h1, h2, h3, h4⟩
      · exact Or.inl ⟨i, h1, h2, step_filled _ _ _ _ h3⟩
      · exact Or.inr ⟨h1, h2, step_filled _ _ _ _ h3, h4⟩

theorem first_filler (jobs : Nat → B32Job) (k : Nat) (sched : List Nat) :
    Filler (jobs k) (b32Run jobs (k :: sched) b32Boot).map ((b32Run jobs (k :: sched) b32Boot).pc k) := by
  refine run_filler jobs k sched _ (Or.inl ⟨0, ?_, by omega, fun i hi => absurd hi (by omega)⟩)
  simp [b32Step, b32Boot]

/-- **C75**: whatever calls run at the same time and however they are scheduled, the call that takes the first step of all returns what it
returns when it runs alone. -/
theorem C75_first_call_partial (jobs : Nat → B32Job) (k : Nat) (sched : List Nat) (r : Option (List UInt8))
    (h : (b32Run jobs (k :: sched) b32Boot).pc k = .done r) : r = base32Decode (jobs k).size (jobs k).text := by
  rcases first_filler jobs k sched with ⟨i, h1, _⟩ | ⟨_, _, _, h4⟩
  · rw [h] at h1; cases h1
  · rw [h] at h4; exact h4

/-- **C75**: once the first call has returned, every call that begins later returns what it returns when it runs alone, in every schedule and
whatever runs at the same time.  (`before` begins with the first call's first step, and the call `j` takes no step in it.) -/
theorem C75_after_first_partial (jobs : Nat → B32Job) (k j : Nat) (before after : List Nat) (r0 r : Option (List UInt8))
    (h0 : (b32Run jobs (k :: before) b32Boot).pc k = .done r0) (hj : j ∉ k :: before)
    (h : (b32Run jobs (k :: before ++ after) b32Boot).pc j = .done r) : r = base32Decode (jobs j).size (jobs j).text := by
  have hf : FilledTo (b32Run jobs (k :: before) b32Boot).map 256 := by
    rcases first_filler jobs k before with ⟨i, h1, _⟩ | ⟨_, _, h3, _⟩
    · rw [h0] at h1; cases h1
    · exact h3
  rw [run_append] at h
  have := run_result jobs j after _ hf
  rw [h, run_idle jobs j _ _ hj] at this
  exact this

/-- How many steps of its own a call still needs. -/
def pcLeft (job : B32Job) : B32Pc → Nat
  | .start => 259 + job.text.length
  | .fill i => 256 - i + 2 + job.text.length
  | .scan rest _ _ _ => rest.length + 1
  | .done _ => 0

theorem turn_left (job : B32Job) (cs : List UInt8) (s : List Nat) (pad : Bool) (out : List UInt8) :
    pcLeft job (b32Turn job.size cs s pad out) ≤ cs.length + 1 := by
  unfold b32Turn
  split
  · dsimp only; split <;> simp [pcLeft]
  · split <;> simp [pcLeft]

theorem step_left (job : B32Job) (map : Nat → Nat) (pc : B32Pc) : pcLeft job (b32Step job map pc).2 ≤ pcLeft job pc - 1 := by
  match pc with
  | .start => simp only [b32Step]; split <;> simp [pcLeft]; omega
  | .fill i => simp only [b32Step]; split <;> simp [pcLeft] <;> omega
  | .done r => simp [b32Step, pcLeft]
  | .scan [] s pad out => simp [b32Step, pcLeft]
  | .scan (c :: cs) s pad out =>
    simp only [b32Step]
    have h := turn_left job cs
    split
    · simpa [pcLeft] using h s true out
    · split
      · simp [pcLeft]
      · simpa [pcLeft] using h _ pad out

theorem run_left (jobs : Nat → B32Job) (j : Nat) : ∀ (sched : List Nat) (y : B32Sys),
    pcLeft (jobs j) ((b32Run jobs sched y).pc j) ≤ pcLeft (jobs j) (y.pc j) - sched.count j
  | [], _ => by simp [b32Run]
  | k :: sched, y => by
    rw [b32Run]
    refine Nat.le_trans (run_left jobs j sched _) ?_
    dsimp only
    by_cases e : j = k
    · subst e
      rw [if_pos rfl, List.count_cons_self]
      exact Nat.le_trans (Nat.sub_le_sub_right (step_left (jobs j) y.map (y.pc j)) _) (by omega)
    · rw [if_neg e, List.count_cons_of_ne (fun h => e h.symm)]
      exact Nat.le_refl _

/-- **C75**: every call returns after at most 259 steps more than its text has characters, however the other calls are scheduled. -/
theorem C75_wait_free (jobs : Nat → B32Job) (j : Nat) (sched : List Nat) (h : 259 + (jobs j).text.length ≤ sched.count j) :
    ∃ r, (b32Run jobs sched b32Boot).pc j = .done r := by
  have := run_left jobs j sched b32Boot
  have h0 : pcLeft (jobs j) (b32Boot.pc j) = 259 + (jobs j).text.length := rfl
  rw [h0] at this
  generalize (b32Run jobs sched b32Boot).pc j = pc at *
  cases pc with
  | done r => exact ⟨r, rfl⟩
  | start => simp [pcLeft] at this; omega
  | fill i => simp [pcLeft] at this; omega
  | scan a b c d => simp [pcLeft] at this; omega

/-- A call has written no more than the size of its buffer. -/
def PcFits (job : B32Job) : B32Pc → Prop
  | .scan _ _ _ out => out.length ≤ job.size
  | .done (some w) => w.length ≤ job.size
  | _ => True

theorem turn_fits (job : B32Job) (cs : List UInt8) (s : List Nat) (pad : Bool) (out : List UInt8) (h : out.length ≤ job.size) :
    PcFits job (b32Turn job.size cs s pad out) := by
  unfold b32Turn
  split
  · dsimp only
    split <;> simp only [PcFits, List.length_append, List.length_take] <;> omega
  · split <;> exact h

theorem step_fits (job : B32Job) (map : Nat → Nat) (pc : B32Pc) (h : PcFits job pc) : PcFits job (b32Step job map pc).2 := by
  match pc with
  | .start => simp only [b32Step]; split <;> simp [PcFits]
  | .fill i => simp only [b32Step]; split <;> simp [PcFits]
  | .done r => exact h
  | .scan [] s pad out => exact h
  | .scan (c :: cs) s pad out =>
    simp only [b32Step]
    split
    · exact turn_fits _ _ _ _ _ h
    · split
      · trivial
      · exact turn_fits _ _ _ _ _ h

theorem run_fits (jobs : Nat → B32Job) (j : Nat) : ∀ (sched : List Nat) (y : B32Sys), PcFits (jobs j) (y.pc j) →
    PcFits (jobs j) ((b32Run jobs sched y).pc j)
  | [], _, h => h
  | k :: sched, y, h => by
    refine run_fits jobs j sched _ ?_
    dsimp only
    split
    · subst j; exact step_fits _ _ _ h
    · exact h

/-- **C75**: even in a race no call writes more than its buffer holds. -/
theorem C75_bounded (jobs : Nat → B32Job) (j : Nat) (sched : List Nat) (w : List UInt8)
    (h : (b32Run jobs sched b32Boot).pc j = .done (some w)) : w.length ≤ (jobs j).size := by
  have := run_fits jobs j sched b32Boot trivial
  rw [h] at this
  exact this

/-- Calls one after the other, each to its end. -/
def serial (jobs : Nat → B32Job) (ks : List Nat) : List Nat :=
  ks.flatMap fun k => List.replicate (259 + (jobs k).text.length) k

/-- **C75**: in a program with one thread every call returns the octets of its text: filling the table lazily cannot be observed. -/
theorem C75_serial (jobs : Nat → B32Job) (ks : List Nat) (j : Nat) (hn : ks.Nodup) (hj : j ∈ ks) :
    (b32Run jobs (serial jobs ks) b32Boot).pc j = .done (base32Decode (jobs j).size (jobs j).text) := by
  obtain ⟨r, hr⟩ := C75_wait_free jobs j (serial jobs ks) (by
    obtain ⟨a, b, rfl⟩ := List.append_of_mem hj
    simp only [serial, List.flatMap_append, List.flatMap_cons, List.count_append, List.count_replicate_self]
    omega)
  rw [hr]
  congr 1
  cases ks with
  | nil => simp at hj
  | cons k ks =>
    have e : serial jobs (k :: ks) = k :: List.replicate (258 + (jobs k).text.length) k ++ serial jobs ks := by
      have : 259 + (jobs k).text.length = (258 + (jobs k).text.length) + 1 := by omega
      rw [serial, List.flatMap_cons, this, List.replicate_succ]; rfl
    rw [e] at hr
    by_cases hk : j = k
    · subst hk; exact C75_first_call_partial jobs j _ r hr
    · obtain ⟨r0, h0⟩ := C75_wait_free jobs k (k :: List.replicate (258 + (jobs k).text.length) k) (by
        rw [List.count_cons_self, List.count_replicate_self]; omega)
      exact C75_after_first_partial jobs k j _ _ r0 r h0 (by simp [hk]) hr

/-- Two calls: number 0 decodes `AAAA`, number 1 decodes the text `t`. -/
def twoJobs (t : List UInt8) (k : Nat) : B32Job := if k = 0 then ⟨4, ascii "AAAA"⟩ else ⟨t.length, t⟩

/-- **C75, violations.**  A call that begins while the first is still filling the table finds it started and uses entries that are not
there yet: it takes the digit `V` (31) for 0, and takes characters outside the alphabet for digits.  (Call 0 tests the table and
stores one entry; then call 1 runs from beginning to end.) -/
theorem C75_race_violations :
    (b32Run (twoJobs (ascii "VV")) [0, 0, 1, 1, 1, 1] b32Boot).pc 1 = .done (some [0]) ∧ base32Decode 2 (ascii "VV") = some [255] ∧
    (b32Run (twoJobs (ascii "!?")) [0, 0, 1, 1, 1, 1] b32Boot).pc 1 = .done (some [0]) ∧ base32Decode 2 (ascii "!?") = none := by
  decide +kernel

/-- The hypotheses of `C75_first_call_partial` and `C75_after_first_partial` are met: call 0 runs to its end, then call 1. -/
example : (b32Run (twoJobs (ascii "VV")) (List.replicate 263 0) b32Boot).pc 0 = .done (some [82, 148]) ∧
    (b32Run (twoJobs (ascii "VV")) (List.replicate 263 0 ++ List.replicate 4 1) b32Boot).pc 1 = .done (some [255]) := by
  decide +kernel

/-- A case of `C75_wait_free`: calls 0 and 1 take turns, and both have ended after 263 steps each. -/
example : ∃ r, (b32Run (twoJobs (ascii "VV")) ((List.range 526).map (· % 2)) b32Boot).pc 1 = .done r :=
  C75_wait_free _ 1 _ (by decide +kernel)

/-- A case of `C75_bounded`: even a call that uses the unfinished table stays within its buffer. -/
example : ([0] : List UInt8).length ≤ (twoJobs (ascii "VV") 1).size :=
  C75_bounded (twoJobs (ascii "VV")) 1 [0, 0, 1, 1, 1, 1] [0] (by decide +kernel)

/-- A case of `C75_serial`: call 1 runs before call 0. -/
example : (b32Run (twoJobs (ascii "VV")) (serial (twoJobs (ascii "VV")) [1, 0]) b32Boot).pc 0 = .done (some [82, 148]) := by
  rw [C75_serial _ [1, 0] 0 (by decide) (by decide)]; decide +kernel

end Wdns
