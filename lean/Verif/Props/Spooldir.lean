import Verif.Lemmas.Spooldir

/-!
# C102: the spool directory
-/

namespace Wdns
open Outcome Wdns.Spec

theorem sdInit_spool {w : SdWorld} {d : List UInt8} {sp : Spool} (hr : w.realpath = some d) (hd : (0 : UInt8) ∉ d) (h : sdInit w = ok sp) : SpoolAt d sp := by
  obtain ⟨a, a', ua, e1, e2, e3, i3, s3⟩ := dir_spec hd ascii_noNul2
  obtain ⟨b, b', ub', f0, f1, f2, j3, t2⟩ := dir_spec hd ascii_noNul1
  rw [e1, ok.injEq] at f0
  subst f0
  unfold sdInit at h
  rw [hr] at h
  simp only at h
  split at h
  · cases h
  · rw [e1, ok_bind, e2, ok_bind, e3, ok_bind, s3, ok_bind] at h
    split at h
    · cases h
    · rw [ok_bind, f1, ok_bind, f2, ok_bind, t2, ok_bind] at h
      split at h
      · cases h
      · split at h
        · cases h
        · cases h
          exact ⟨hd, rfl, i3, j3, [], Ubuf.inv_init 128⟩

theorem step_moved {d : List UInt8} {st st' : SdState} {ev : SdEv} (h : SdInv d st) (hs : sdStep st ev = some (ok st')) :
    st'.moved = st.moved ∨ ∃ t src nd, st.pc t = .rename src ∧ st.fs (incomingPath d st.dent) = some nd ∧ st'.moved = st.moved ++ [(t, st.dent, nd.id)] ∧
      st'.fs = (st.fs.put (incomingPath d st.dent) none).put (activePath d st.dent) (some nd) := by
  cases ev with
  | rename t good =>
    simp only [sdStep] at hs
    split at hs
    · rename_i src hpc
      have hat := h.at_ t
      rw [hpc] at hat
      simp only [Option.some.injEq] at hs
      rw [sdCstr_spec hat.2.2.1 (incoming_noNul h.spool.noNul (entry_noNul hat.1)), ok_bind,
        sdCstr_spec hat.2.2.2 (active_noNul h.spool.noNul (entry_noNul hat.1)), ok_bind] at hs
      split at hs
      · rename_i nd hnd
        cases hs
        exact .inr ⟨t, src, nd, hpc, hnd, rfl, rfl⟩
      · cases hs; exact .inl rfl
    · cases hs
  | call t => simp only [sdStep] at hs; split at hs <;> cases hs; exact .inl rfl
  | lock t => simp only [sdStep] at hs; split at hs <;> cases hs; exact .inl rfl
  | rewind t => simp only [sdStep] at hs; split at hs <;> cases hs; exact .inl rfl
  | create p reg => simp only [sdStep] at hs; cases hs; exact .inl rfl
  | remove p => simp only [sdStep] at hs; cases hs; exact .inl rfl
  | readdir t e =>
    simp only [sdStep] at hs
    split at hs
    · cases e with
      | none => cases hs; exact .inl rfl
      | some n =>
        simp only at hs
        split at hs
        · cases hs; exact .inl rfl
        · cases hs
    · cases hs
  | fstatat t good =>
    simp only [sdStep] at hs
    split at hs
    · simp only [Option.some.injEq] at hs
      split at hs
      · split at hs
        · obtain ⟨_, -, hs⟩ := bind_eq_ok.mp hs
          obtain ⟨_, -, hs⟩ := bind_eq_ok.mp hs
          cases hs; exact .inl rfl
        · cases hs; exact .inl rfl
      · cases hs; exact .inl rfl
    · cases hs
  | exist t good =>
    simp only [sdStep] at hs
    split at hs
    · simp only [Option.some.injEq] at hs
      obtain ⟨_, -, hs⟩ := bind_eq_ok.mp hs
      cases hs; exact .inl rfl
    · cases hs
  | unlink t good =>
    simp only [sdStep] at hs
    split at hs
    · simp only [Option.some.injEq] at hs
      obtain ⟨_, -, hs⟩ := bind_eq_ok.mp hs
      cases hs; exact .inl rfl
    · cases hs
  | unlock t =>
    simp only [sdStep] at hs
    split at hs
    · simp only [Option.some.injEq] at hs
      split at hs <;> cases hs
      exact .inl rfl
    · cases hs
  | ret t =>
    simp only [sdStep] at hs
    split at hs
    · cases hs; exact .inl rfl
    · simp only [Option.some.injEq] at hs
      obtain ⟨_, -, hs⟩ := bind_eq_ok.mp hs
      cases hs; exact .inl rfl
    · cases hs

theorem step_files {d : List UInt8} {st st' : SdState} {ev : SdEv} (h : SdInv d st) (hs : sdStep st ev = some (ok st'))
    (hev : (∀ p reg, ev ≠ .create p reg) ∧ ∀ p, ev ≠ .remove p) :
    st'.fs = st.fs ∨ (∃ t, st.owner = some t ∧ st'.fs = st.fs.put (activePath d st.dent) none) ∨
    ∃ t nd, st.owner = some t ∧ st.fs (incomingPath d st.dent) = some nd ∧
      st'.fs = (st.fs.put (incomingPath d st.dent) none).put (activePath d st.dent) (some nd) ∧ st'.moved = st.moved ++ [(t, st.dent, nd.id)] := by
  cases ev with
  | create p reg => exact absurd rfl (hev.1 p reg)
  | remove p => exact absurd rfl (hev.2 p)
  | rename t good =>
    simp only [sdStep] at hs
    split at hs
    · rename_i src hpc
      have hat := h.at_ t
      rw [hpc] at hat
      simp only [Option.some.injEq] at hs
      rw [sdCstr_spec hat.2.2.1 (incoming_noNul h.spool.noNul (entry_noNul hat.1)), ok_bind,
        sdCstr_spec hat.2.2.2 (active_noNul h.spool.noNul (entry_noNul hat.1)), ok_bind] at hs
      split at hs
      · rename_i nd hnd
        cases hs
        exact .inr (.inr ⟨t, nd, inside_own h hpc rfl, hnd, rfl, rfl⟩)
      · cases hs; exact .inl rfl
    · cases hs
  | unlink t good =>
    simp only [sdStep] at hs
    split at hs
    · rename_i src hpc
      have hat := h.at_ t
      rw [hpc] at hat
      simp only [Option.some.injEq] at hs
      rw [sdCstr_spec hat.2.2.2 (active_noNul h.spool.noNul (entry_noNul hat.1)), ok_bind] at hs
      cases hs
      cases good with
      | false => exact .inl rfl
      | true => exact .inr (.inl ⟨t, inside_own h hpc rfl, rfl⟩)
    · cases hs
  | call t => simp only [sdStep] at hs; split at hs <;> cases hs; exact .inl rfl
  | lock t => simp only [sdStep] at hs; split at hs <;> cases hs; exact .inl rfl
  | rewind t => simp only [sdStep] at hs; split at hs <;> cases hs; exact .inl rfl
  | readdir t e =>
    simp only [sdStep] at hs
    split at hs
    · cases e with
      | none => cases hs; exact .inl rfl
      | some n =>
        simp only at hs
        split at hs
        · cases hs; exact .inl rfl
        · cases hs
    · cases hs
  | fstatat t good =>
    simp only [sdStep] at hs
    split at hs
    · simp only [Option.some.injEq] at hs
      split at hs
      · split at hs
        · obtain ⟨_, -, hs⟩ := bind_eq_ok.mp hs
          obtain ⟨_, -, hs⟩ := bind_eq_ok.mp hs
          cases hs; exact .inl rfl
        · cases hs; exact .inl rfl
      · cases hs; exact .inl rfl
    · cases hs
  | exist t good =>
    simp only [sdStep] at hs
    split at hs
    · simp only [Option.some.injEq] at hs
      obtain ⟨_, -, hs⟩ := bind_eq_ok.mp hs
      cases hs; exact .inl rfl
    · cases hs
  | unlock t =>
    simp only [sdStep] at hs
    split at hs
    · simp only [Option.some.injEq] at hs
      split at hs <;> cases hs
      exact .inl rfl
    · cases hs
  | ret t =>
    simp only [sdStep] at hs
    split at hs
    · cases hs; exact .inl rfl
    · simp only [Option.some.injEq] at hs
      obtain ⟨_, -, hs⟩ := bind_eq_ok.mp hs
      cases hs; exact .inl rfl
    · cases hs

/-- The thread that makes the step. -/
def SdEv.thread : SdEv → Option Nat
  | .call t | .lock t | .readdir t _ | .rewind t | .fstatat t _ | .exist t _ | .unlink t _ | .rename t _ | .unlock t | .ret t => some t
  | .create _ _ | .remove _ => none

theorem step_exists {d : List UInt8} {st : SdState} (h : SdInv d st) {t : Nat} (h1 : st.pc t ≠ .idle) (h2 : st.pc t ≠ .wait) :
    ∃ ev st', ev.thread = some t ∧ sdStep st ev = some (ok st') := by
  have key : ∀ ev r, ev.thread = some t → sdStep st ev = some r → ∃ ev st', ev.thread = some t ∧ sdStep st ev = some (ok st') := by
    intro ev r hev hs
    obtain ⟨st', rfl, -⟩ := sdStep_inv h hs
    exact ⟨ev, st', hev, hs⟩
  cases hpc : st.pc t with
  | idle => exact absurd hpc h1
  | wait => exact absurd hpc h2
  | read => exact key (.readdir t none) _ rfl (by simp only [sdStep]; rw [if_pos hpc])
  | rewind => exact key (.rewind t) _ rfl (by simp only [sdStep]; rw [if_pos hpc])
  | stat => exact key (.fstatat t true) _ rfl (by simp only [sdStep]; rw [if_pos hpc])
  | exist src => exact key (.exist t true) _ rfl (by simp only [sdStep, hpc]; rfl)
  | unlink src => exact key (.unlink t true) _ rfl (by simp only [sdStep, hpc]; rfl)
  | rename src => exact key (.rename t true) _ rfl (by simp only [sdStep, hpc]; rfl)
  | unlock r => exact key (.unlock t) _ rfl (by simp only [sdStep, hpc]; rfl)
  | done r =>
    cases r with
    | none => exact key (.ret t) _ rfl (by simp only [sdStep, hpc]; rfl)
    | some b => exact key (.ret t) _ rfl (by simp only [sdStep, hpc]; rfl)

/-- **C102.** The spool directory opens exactly if the path is a directory and its subdirectories `active` and `incoming` exist or can be made, and
the latter can be read; otherwise an assertion fails. -/
theorem C102_init (w : SdWorld) (d : List UInt8) (hr : w.realpath = some d) (hd : (0 : UInt8) ∉ d) :
    if w.isdir d = true ∧ (w.isdir (d ++ ascii "/active") = true ∨ w.mkdir (d ++ ascii "/active") = true) ∧
      (w.isdir (d ++ ascii "/incoming") = true ∨ w.mkdir (d ++ ascii "/incoming") = true) ∧ w.opendir (d ++ ascii "/incoming") = true
    then ∃ sp, sdInit w = ok sp else sdInit w = abort := by
  obtain ⟨a, a', ua, e1, e2, e3, i3, s3⟩ := dir_spec hd ascii_noNul2
  obtain ⟨b, b', ub', f0, f1, f2, j3, t2⟩ := dir_spec hd ascii_noNul1
  rw [e1, ok.injEq] at f0
  subst f0
  unfold sdInit sdMkdir
  rw [hr]
  simp only
  rw [e1, ok_bind, e2, ok_bind, e3, ok_bind, s3, ok_bind, ok_bind, f1, ok_bind, f2, ok_bind, t2, ok_bind]
  cases w.isdir d <;> cases w.isdir (d ++ ascii "/active") <;> cases w.mkdir (d ++ ascii "/active") <;> cases w.isdir (d ++ ascii "/incoming") <;>
    cases w.mkdir (d ++ ascii "/incoming") <;> cases w.opendir (d ++ ascii "/incoming") <;> simp

/-- **C102.** No schedule of the threads and of the other processes, and no failure of a system call, leads to undefined behaviour or to a failed
assertion. -/
theorem C102_safe (w : SdWorld) (d : List UInt8) (sp : Spool) (fs : SdFs) (next : Nat) (st : SdState) (ev : SdEv) (r : Outcome SdState)
    (hr : w.realpath = some d) (hd : (0 : UInt8) ∉ d) (hi : sdInit w = ok sp) (hf : FsOk fs next) (hst : SdReach (sdStart sp fs next) st)
    (hs : sdStep st ev = some r) : ∃ st', r = ok st' := by
  obtain ⟨st', h, -⟩ := sdStep_inv (sdReach_inv (sdStart_inv (sdInit_spool hr hd hi) hf) hst) hs
  exact ⟨st', h⟩

/-- **C102.** At most one thread is between the lock and the unlock. -/
theorem C102_exclusive (w : SdWorld) (d : List UInt8) (sp : Spool) (fs : SdFs) (next : Nat) (st : SdState) (i j : Nat)
    (hr : w.realpath = some d) (hd : (0 : UInt8) ∉ d) (hi : sdInit w = ok sp) (hf : FsOk fs next) (hst : SdReach (sdStart sp fs next) st)
    (h1 : Inside (st.pc i) = true) (h2 : Inside (st.pc j) = true) : i = j := by
  have h := sdReach_inv (sdStart_inv (sdInit_spool hr hd hi) hf) hst
  rw [h.own] at h1 h2
  rw [h1] at h2
  cases h2
  rfl

/-- **C102.** No file is handed out twice. -/
theorem C102_once (w : SdWorld) (d : List UInt8) (sp : Spool) (fs : SdFs) (next : Nat) (st : SdState)
    (hr : w.realpath = some d) (hd : (0 : UInt8) ∉ d) (hi : sdInit w = ok sp) (hf : FsOk fs next) (hst : SdReach (sdStart sp fs next) st) :
    (st.moved.map (·.2.2)).Nodup :=
  (sdReach_inv (sdStart_inv (sdInit_spool hr hd hi) hf) hst).once

/-- **C102.** What the calls of a thread have returned are the paths, in `active`, of the files that it has moved there: a file that is moved is reported, once,
to the caller on whose behalf it was moved. -/
theorem C102_returned (w : SdWorld) (d : List UInt8) (sp : Spool) (fs : SdFs) (next : Nat) (st : SdState) (t : Nat)
    (hr : w.realpath = some d) (hd : (0 : UInt8) ∉ d) (hi : sdInit w = ok sp) (hf : FsOk fs next) (hst : SdReach (sdStart sp fs next) st)
    (hidle : st.pc t = .idle) : returnedTo st t = (takenBy st t).map fun m => activePath d m.1 := by
  have h := (sdReach_inv (sdStart_inv (sdInit_spool hr hd hi) hf) hst).acct t
  rw [hidle] at h
  simpa [pendingOf] using h.symm

/-- **C102.** Only entries that do not begin with a dot are handed out. -/
theorem C102_visible (w : SdWorld) (d : List UInt8) (sp : Spool) (fs : SdFs) (next : Nat) (st : SdState)
    (hr : w.realpath = some d) (hd : (0 : UInt8) ∉ d) (hi : sdInit w = ok sp) (hf : FsOk fs next) (hst : SdReach (sdStart sp fs next) st) :
    ∀ m ∈ st.moved, sdEntry m.2.1 = true ∧ m.2.1.head? ≠ some 46 := by
  have h0 := sdStart_inv (sdInit_spool hr hd hi) hf
  induction hst with
  | start => simp [sdStart]
  | @step st1 st2 ev hr1 hs ih =>
    have h1 := sdReach_inv h0 hr1
    rcases step_moved h1 hs with h | ⟨t, src, nd, hpc, -, hm, -⟩
    · rw [h]; exact ih
    · rw [hm]
      intro m hmm
      rcases List.mem_append.mp hmm with hmm | hmm
      · exact ih m hmm
      · simp only [List.mem_singleton] at hmm
        subst hmm
        have := h1.at_ t
        rw [hpc] at this
        exact ⟨this.1, this.2.1⟩

/-- **C102.** A step of `spooldir_next` leaves every file where it is, with these exceptions: the file that is handed out moves from
`incoming` to `active`, under the same name; and a file in `active` with the name of the one that the call holding the lock is about to take may go. -/
theorem C102_keeps (w : SdWorld) (d : List UInt8) (sp : Spool) (fs : SdFs) (next : Nat) (st st' : SdState) (ev : SdEv)
    (hr : w.realpath = some d) (hd : (0 : UInt8) ∉ d) (hi : sdInit w = ok sp) (hf : FsOk fs next) (hst : SdReach (sdStart sp fs next) st)
    (hs : sdStep st ev = some (ok st')) (hev : (∀ p reg, ev ≠ .create p reg) ∧ ∀ p, ev ≠ .remove p) (p : List UInt8) (nd : SdNode) (hp : st.fs p = some nd) :
    st'.fs p = some nd ∨
    (∃ t n, p = incomingPath d n ∧ st'.fs (activePath d n) = some nd ∧ st'.moved = st.moved ++ [(t, n, nd.id)]) ∨
    (∃ t, st.owner = some t ∧ p = activePath d st.dent) := by
  have h := sdReach_inv (sdStart_inv (sdInit_spool hr hd hi) hf) hst
  rcases step_files h hs hev with he | ⟨t, ho, he⟩ | ⟨t, nd', ho, hnd, he, hm⟩
  · exact .inl (by rw [he]; exact hp)
  · by_cases hpa : p = activePath d st.dent
    · exact .inr (.inr ⟨t, ho, hpa⟩)
    · exact .inl (by rw [he, put_get, if_neg hpa]; exact hp)
  · by_cases hpa : p = activePath d st.dent
    · exact .inr (.inr ⟨t, ho, hpa⟩)
    · by_cases hpi : p = incomingPath d st.dent
      · subst hpi
        rw [hnd] at hp
        cases hp
        exact .inr (.inl ⟨t, st.dent, rfl, by rw [he, put_get, if_pos rfl], hm⟩)
      · exact .inl (by rw [he, put_get, if_neg hpa, put_get, if_neg hpi]; exact hp)

/-- **C102 (no deadlock).** A thread in `spooldir_next` can go on, unless it waits for the lock; then the thread that holds the lock can. -/
theorem C102_no_deadlock (w : SdWorld) (d : List UInt8) (sp : Spool) (fs : SdFs) (next : Nat) (st : SdState) (t : Nat)
    (hr : w.realpath = some d) (hd : (0 : UInt8) ∉ d) (hi : sdInit w = ok sp) (hf : FsOk fs next) (hst : SdReach (sdStart sp fs next) st)
    (hbusy : st.pc t ≠ .idle) :
    (∃ ev st', ev.thread = some t ∧ sdStep st ev = some (ok st')) ∨
    (st.pc t = .wait ∧ ∃ u ev st', u ≠ t ∧ st.owner = some u ∧ ev.thread = some u ∧ sdStep st ev = some (ok st')) := by
  have h := sdReach_inv (sdStart_inv (sdInit_spool hr hd hi) hf) hst
  by_cases hw : st.pc t = .wait
  · cases ho : st.owner with
    | none => exact .inl ⟨.lock t, _, rfl, by simp only [sdStep]; rw [if_pos ⟨hw, ho⟩]⟩
    | some u =>
      have hin := (h.own u).mpr ho
      obtain ⟨ev, st', h1, h2⟩ := step_exists h (t := u) (by intro e; rw [e] at hin; cases hin) (by intro e; rw [e] at hin; cases hin)
      refine .inr ⟨hw, u, ev, st', ?_, rfl, h1, h2⟩
      intro e
      rw [e, hw] at hin
      cases hin
  · exact .inl (step_exists h hbusy hw)

/-! ## a call -/

theorem sdRun_append {a b : List SdEv} {st s1 : SdState} (h1 : sdRun a st = some (ok s1)) : sdRun (a ++ b) st = sdRun b s1 := by
  induction a generalizing st with
  | nil => simp only [sdRun, Option.some.injEq, ok.injEq] at h1; subst h1; rfl
  | cons ev a ih =>
    simp only [sdRun, List.cons_append] at h1 ⊢
    split at h1
    · exact ih h1
    · rename_i r hr
      exact absurd h1 (hr s1)

theorem sdRun_reach {a : List SdEv} {st s1 : SdState} (h1 : sdRun a st = some (ok s1)) : ∀ {s0}, SdReach s0 st → SdReach s0 s1 := by
  induction a generalizing st with
  | nil => intro s0 h; simp only [sdRun, Option.some.injEq, ok.injEq] at h1; subst h1; exact h
  | cons ev a ih =>
    intro s0 h
    simp only [sdRun] at h1
    split at h1
    · rename_i st2 h2
      exact ih h1 (.step h h2)
    · rename_i r hr
      exact absurd h1 (hr s1)

theorem sdRun_one {ev : SdEv} {evs : List SdEv} {st s1 : SdState} (h : sdStep st ev = some (ok s1)) : sdRun (ev :: evs) st = sdRun evs s1 := by
  simp only [sdRun, h]

/-- Entries that are passed over. -/
theorem run_skip {d : List UInt8} {t : Nat} : ∀ (skip : List (List UInt8)) {st : SdState}, SdInv d st → st.pc t = .read →
    (∀ m ∈ skip, sdEntry m = true ∧ PassedOver st.fs d m) →
    ∃ s1, sdRun (skip.flatMap fun m => .readdir t (some m) :: (if m.head? = some 46 then [] else [.fstatat t true])) st = some (ok s1) ∧
      SdInv d s1 ∧ s1.pc t = .read ∧ s1.fs = st.fs ∧ s1.moved = st.moved ∧ s1.outs = st.outs ∧ s1.next = st.next := by
  intro skip
  induction skip with
  | nil => intro st h hpc _; exact ⟨st, rfl, h, hpc, rfl, rfl, rfl, rfl⟩
  | cons m skip ih =>
    intro st h hpc hsk
    obtain ⟨he, hm⟩ := hsk m (by simp)
    have hsk' := fun x hx => hsk x (List.mem_cons_of_mem _ hx)
    rw [List.flatMap_cons]
    have h1 : sdStep st (.readdir t (some m)) = some (ok { st.goto t (if m.head? = some 46 then .read else .stat) with dent := m }) := by
      simp only [sdStep]; rw [if_pos hpc, if_pos he]
    obtain ⟨s1, hs1, i1⟩ := sdStep_inv h h1
    cases hs1
    by_cases h46 : m.head? = some 46
    · rw [if_pos h46] at h1 i1
      rw [if_pos h46]
      obtain ⟨s2, r2, i2, p2, f2, m2, o2, n2⟩ := ih i1 (by simp [SdState.goto]) hsk'
      exact ⟨s2, by rw [List.cons_append, List.nil_append, sdRun_one h1]; exact r2, i2, p2, f2, m2, o2, n2⟩
    · rw [if_neg h46] at h1 i1
      rw [if_neg h46]
      have h2 : sdStep { st.goto t .stat with dent := m } (.fstatat t true) = some (ok ({ st.goto t .stat with dent := m }.goto t .read)) := by
        simp only [sdStep]
        rw [if_pos (show (st.goto t .stat).pc t = .stat by simp [SdState.goto])]
        rcases hm with hm | hm
        · exact absurd hm h46
        · rw [show (st.goto t .stat).sp.dir = st.sp.dir from rfl, h.spool.dir, incoming_eq, show (st.goto t .stat).fs = st.fs from rfl]
          cases hf : st.fs (incomingPath d m) with
          | none => rfl
          | some nd => simp only [hm nd hf, Bool.false_eq_true, if_false]
      obtain ⟨s2, hs2, i2⟩ := sdStep_inv i1 h2
      cases hs2
      obtain ⟨s3, r3, i3, p3, f3, m3, o3, n3⟩ := ih i2 (by simp [SdState.goto]) hsk'
      exact ⟨s3, by rw [List.cons_append, List.cons_append, List.nil_append, sdRun_one h1, sdRun_one h2]; exact r3, i3, p3, f3, m3, o3, n3⟩

/-- **C102 (a call).** A call that is not interfered with takes the first entry `n` that is not hidden and is a regular file, whatever entries `readdir`
reports before it: the file is moved from `incoming` to `active` and its new path is returned.  A file of that name in `active` is replaced. -/
theorem C102_call (w : SdWorld) (d : List UInt8) (sp : Spool) (fs : SdFs) (next : Nat) (st : SdState) (t : Nat) (skip : List (List UInt8)) (n : List UInt8)
    (nd : SdNode) (hr : w.realpath = some d) (hd : (0 : UInt8) ∉ d) (hi : sdInit w = ok sp) (hf : FsOk fs next) (hst : SdReach (sdStart sp fs next) st)
    (hidle : st.pc t = .idle) (hfree : st.owner = none) (hskip : ∀ m ∈ skip, sdEntry m = true ∧ PassedOver st.fs d m)
    (hn : sdEntry n = true) (hdot : n.head? ≠ some 46) (hnd : st.fs (incomingPath d n) = some nd) (hreg : nd.reg = true) :
    ∃ st', sdRun (callEvents t skip n (st.fs (activePath d n)).isSome) st = some (ok st') ∧
      st'.outs = st.outs ++ [(t, some (activePath d n))] ∧ st'.moved = st.moved ++ [(t, n, nd.id)] ∧ st'.pc t = .idle ∧ st'.owner = none ∧
      ∀ p, st'.fs p = if p = activePath d n then some nd else if p = incomingPath d n then none else st.fs p := by
  have h := sdReach_inv (sdStart_inv (sdInit_spool hr hd hi) hf) hst
  have hd' := h.spool.noNul
  have hn0 := entry_noNul hn
  -- up to the entry
  have h1 : sdStep st (.call t) = some (ok (st.goto t .wait)) := by simp only [sdStep]; rw [if_pos hidle]
  obtain ⟨_, rfl', i1⟩ := sdStep_inv h h1
  cases rfl'
  have h2 : sdStep (st.goto t .wait) (.lock t) = some (ok { (st.goto t .wait).goto t .read with owner := some t }) := by
    simp only [sdStep]; rw [if_pos ⟨by simp [SdState.goto], hfree⟩]
  obtain ⟨_, rfl', i2⟩ := sdStep_inv i1 h2
  cases rfl'
  obtain ⟨s3, r3, i3, p3, f3, m3, o3, n3⟩ := run_skip (t := t) skip i2 (by simp [SdState.goto]) hskip
  -- the entry
  have h4 : sdStep s3 (.readdir t (some n)) = some (ok { s3.goto t .stat with dent := n }) := by
    simp only [sdStep]; rw [if_pos p3, if_pos hn, if_neg hdot]
  obtain ⟨_, rfl', i4⟩ := sdStep_inv i3 h4
  cases rfl'
  obtain ⟨src, e1, j1⟩ := sdSrc_spec i3.spool hn0
  obtain ⟨dst, e2, j2⟩ := sdDst_spec i3.spool hn0
  have f3' : s3.fs = st.fs := f3
  have h5 : sdStep { s3.goto t .stat with dent := n } (.fstatat t true) =
      some (ok { { s3.goto t .stat with dent := n }.goto t (.exist src) with sp := { s3.sp with fname := dst } }) := by
    simp only [sdStep]
    rw [if_pos (show (s3.goto t .stat).pc t = .stat by simp [SdState.goto])]
    rw [show (s3.goto t .stat).sp = s3.sp from rfl, i3.spool.dir, incoming_eq, show (s3.goto t .stat).fs = st.fs from f3', hnd]
    simp only [hreg, if_true, e1, e2, ok_bind]
  obtain ⟨s5, e5, i5⟩ := sdStep_inv i4 h5
  simp only [ok.injEq] at e5
  have hs5 : s5.pc t = .exist src ∧ s5.sp.fname = dst ∧ s5.fs = st.fs ∧ s5.dent = n ∧ s5.moved = st.moved ∧ s5.outs = st.outs := by
    rw [← e5]
    exact ⟨by simp [SdState.goto], rfl, f3', rfl, m3, o3⟩
  rw [e5] at h5
  obtain ⟨p5, d5, f5, n5, m5, o5⟩ := hs5
  have ho5 := inside_own i5 p5 rfl
  have hc5 : sdCstr s5.sp.fname = ok (activePath d n) := by rw [d5]; exact sdCstr_spec j2 (active_noNul hd' hn0)
  have h6 : sdStep s5 (.exist t true) = some (ok (s5.goto t (if (st.fs (activePath d n)).isSome then .unlink src else .rename src))) := by
    simp only [sdStep, p5, hc5, ok_bind, f5, Bool.true_and]
  -- up to the rename
  have hmid : ∃ s7, sdRun (if (st.fs (activePath d n)).isSome then [.unlink t true] else [])
        (s5.goto t (if (st.fs (activePath d n)).isSome then .unlink src else .rename src)) = some (ok s7) ∧ SdInv d s7 ∧
      s7.pc t = .rename src ∧ s7.sp.fname = dst ∧ s7.dent = n ∧ s7.moved = st.moved ∧ s7.outs = st.outs ∧
      (∀ p, p ≠ activePath d n → s7.fs p = st.fs p) := by
    obtain ⟨_, rfl', i6⟩ := sdStep_inv i5 h6
    cases rfl'
    cases hx : (st.fs (activePath d n)).isSome with
    | false =>
      rw [hx] at i6
      refine ⟨_, rfl, i6, by simp [SdState.goto], d5, n5, m5, o5, ?_⟩
      intro p _
      exact congrFun f5 p
    | true =>
      rw [hx] at i6
      simp only [if_true] at i6 ⊢
      have h7 : sdStep (s5.goto t (.unlink src)) (.unlink t true) =
          some (ok { (s5.goto t (.unlink src)).goto t (.rename src) with fs := s5.fs.put (activePath d n) none }) := by
        simp only [sdStep, show (s5.goto t (.unlink src)).pc t = .unlink src by simp [SdState.goto], show (s5.goto t (.unlink src)).sp = s5.sp from rfl,
          hc5, ok_bind]
        rfl
      obtain ⟨_, rfl', i7⟩ := sdStep_inv i6 h7
      cases rfl'
      refine ⟨_, by rw [sdRun_one h7]; rfl, i7, by simp [SdState.goto], d5, n5, m5, o5, ?_⟩
      intro p hp
      show s5.fs.put _ none p = _
      rw [put_get, if_neg hp, f5]
  obtain ⟨s7, r7, i7, p7, d7, n7, m7, o7, f7⟩ := hmid
  have ho7 := inside_own i7 p7 rfl
  have hnd7 : s7.fs (incomingPath d n) = some nd := by rw [f7 _ (paths_differ d n n)]; exact hnd
  have hc7 : sdCstr s7.sp.fname = ok (activePath d n) := by rw [d7]; exact sdCstr_spec j2 (active_noNul hd' hn0)
  have h8 : sdStep s7 (.rename t true) = some (ok { s7.goto t (.unlock (some dst.v)) with
      sp := { s7.sp with fname := dst.detach.2 }
      fs := (s7.fs.put (incomingPath d n) none).put (activePath d n) (some nd)
      moved := s7.moved ++ [(t, n, nd.id)] }) := by
    rw [d7] at hc7
    simp only [sdStep, p7, sdCstr_spec j1 (incoming_noNul hd' hn0), d7, hc7, ok_bind, hnd7, n7]
    rfl
  obtain ⟨s8, e8, i8⟩ := sdStep_inv i7 h8
  simp only [ok.injEq] at e8
  have hs8 : s8.pc t = .unlock (some dst.v) ∧ s8.moved = st.moved ++ [(t, n, nd.id)] ∧ s8.outs = st.outs ∧
      s8.fs = (s7.fs.put (incomingPath d n) none).put (activePath d n) (some nd) := by
    rw [← e8]
    exact ⟨by simp [SdState.goto], by rw [m7], o7, rfl⟩
  rw [e8] at h8
  obtain ⟨p8, m8, o8, f8⟩ := hs8
  have ho8 := inside_own i8 p8 rfl
  have h9 : sdStep s8 (.unlock t) = some (ok { s8.goto t (.done (some dst.v)) with owner := none }) := by
    simp only [sdStep, p8]; rw [if_pos ho8]
  have h10 : sdStep { s8.goto t (.done (some dst.v)) with owner := none } (.ret t) =
      some (ok { { s8.goto t (.done (some dst.v)) with owner := none }.goto t .idle with outs := s8.outs ++ [(t, some (activePath d n))] }) := by
    simp only [sdStep, show (s8.goto t (.done (some dst.v))).pc t = .done (some dst.v) by simp [SdState.goto], block_str j2 (active_noNul hd' hn0), ok_bind]
    rfl
  refine ⟨{ { s8.goto t (.done (some dst.v)) with owner := none }.goto t .idle with outs := s8.outs ++ [(t, some (activePath d n))] }, ?_, ?_, m8, by simp [SdState.goto], rfl, ?_⟩
  · unfold callEvents
    rw [List.append_assoc, List.append_assoc, List.append_assoc, List.cons_append, List.cons_append, List.nil_append, sdRun_one h1, sdRun_one h2,
      sdRun_append r3, List.cons_append, List.cons_append, List.cons_append, List.nil_append, sdRun_one h4, sdRun_one h5, sdRun_one h6, sdRun_append r7,
      sdRun_one h8, sdRun_one h9, sdRun_one h10]
    rfl
  · show s8.outs ++ _ = _
    rw [o8]
  · intro p
    show s8.fs p = _
    rw [f8, put_get, put_get]
    by_cases hp : p = activePath d n
    · rw [if_pos hp, if_pos hp]
    · rw [if_neg hp, if_neg hp, f7 p hp]

/-! ## an instance, and what goes wrong -/

/-- A world in which `/s` is a spool directory. -/
def sampleSpool : SdWorld := ⟨some (ascii "/s"), fun _ => true, fun _ => false, fun _ => true⟩

/-- Two files have arrived, `a` and `.b`. -/
def sampleFiles : SdFs := fun p => if p = ascii "/s/incoming/a" then some ⟨0, true⟩ else if p = ascii "/s/incoming/.b" then some ⟨1, true⟩ else none

theorem sampleFiles_ok : FsOk sampleFiles 2 := by
  constructor
  · intro p nd h
    simp only [sampleFiles] at h
    split at h
    · cases h; decide
    · split at h
      · cases h; decide
      · cases h
  · intro p q a b ha hb hid
    simp only [sampleFiles] at ha hb
    split at ha
    · cases ha
      split at hb
      · simp [*]
      · split at hb
        · cases hb; simp at hid
        · cases hb
    · split at ha
      · cases ha
        split at hb
        · cases hb; simp at hid
        · split at hb
          · simp [*]
          · cases hb
      · cases ha

theorem sampleSpool_ok : ∃ sp, sdInit sampleSpool = ok sp := by
  have := C102_init sampleSpool (ascii "/s") rfl (by decide)
  rwa [if_pos (by decide)] at this

/-- A case of `C102_call`: thread 7 is told about `.b`, a subdirectory entry `x` that has gone and `a`, and gets `a`. -/
example : ∃ sp st', sdInit sampleSpool = ok sp ∧
    sdRun (callEvents 7 [ascii ".b", ascii "x"] (ascii "a") false) (sdStart sp sampleFiles 2) = some (ok st') ∧
    st'.outs = [(7, some (ascii "/s/active/a"))] ∧ st'.fs (ascii "/s/active/a") = some ⟨0, true⟩ := by
  obtain ⟨sp, h⟩ := sampleSpool_ok
  obtain ⟨st', h1, h2, -, -, -, h3⟩ := C102_call sampleSpool (ascii "/s") sp sampleFiles 2 (sdStart sp sampleFiles 2) 7 [ascii ".b", ascii "x"] (ascii "a")
    ⟨0, true⟩ rfl (by decide) h sampleFiles_ok .start rfl rfl (by
      intro m hm
      simp only [List.mem_cons, List.not_mem_nil, or_false] at hm
      rcases hm with rfl | rfl
      · exact ⟨by decide, .inl (by decide)⟩
      · refine ⟨by decide, .inr ?_⟩
        intro nd hnd
        have : sampleFiles (incomingPath (ascii "/s") (ascii "x")) = none := by decide
        rw [show (sdStart sp sampleFiles 2).fs = sampleFiles from rfl, this] at hnd
        cases hnd) (by decide) (by decide) (show sampleFiles (incomingPath (ascii "/s") (ascii "a")) = some ⟨0, true⟩ by decide) rfl
  refine ⟨sp, st', h, h1, h2, ?_⟩
  rw [h3, if_pos (by decide)]

/-- A file `a` arrives, is handed out, another file `a` arrives, and the next `rename` fails. -/
def spoolAccident : List SdEv :=
  [.call 1, .lock 1, .readdir 1 (some (ascii "a")), .fstatat 1 true, .exist 1 true, .rename 1 true, .unlock 1, .ret 1,
   .create (ascii "/s/incoming/a") true,
   .call 1, .lock 1, .readdir 1 (some (ascii "a")), .fstatat 1 true, .exist 1 true, .unlink 1 true, .rename 1 false, .unlock 1, .ret 1]

/-- **C102 is violated** in one point: a file that was handed out does not always stay until its owner removes it.  Here a second file of the same name arrives;
the next call unlinks the first one, fails to move the second, and returns `NULL`. -/
theorem C102_destroyed_violated : ∃ sp st', sdInit sampleSpool = ok sp ∧
    sdRun spoolAccident (sdStart sp sampleFiles 2) = some (ok st') ∧
    st'.outs = [(1, some (ascii "/s/active/a")), (1, none)] ∧ st'.fs (ascii "/s/active/a") = none ∧
    st'.fs (ascii "/s/incoming/a") = some ⟨2, true⟩ := by
  obtain ⟨sp, h⟩ := sampleSpool_ok
  have hk : (match sdInit sampleSpool with
    | ok sp => match sdRun spoolAccident (sdStart sp sampleFiles 2) with
      | some (ok st') => decide (st'.outs = [(1, some (ascii "/s/active/a")), (1, none)] ∧ st'.fs (ascii "/s/active/a") = none ∧
          st'.fs (ascii "/s/incoming/a") = some ⟨2, true⟩)
      | _ => false
    | _ => false) = true := by decide +kernel
  rw [h] at hk
  simp only at hk
  split at hk
  · rename_i st' hst
    exact ⟨sp, st', h, hst, of_decide_eq_true hk⟩
  · cases hk

/-- The other theorems for this history. -/
example : ∃ sp st', sdInit sampleSpool = ok sp ∧ SdReach (sdStart sp sampleFiles 2) st' ∧ (st'.moved.map (·.2.2)).Nodup ∧ st'.outs.length = 2 := by
  obtain ⟨sp, st', h, h1, h2, -⟩ := C102_destroyed_violated
  have hr := sdRun_reach h1 SdReach.start
  exact ⟨sp, st', h, hr, C102_once sampleSpool (ascii "/s") sp sampleFiles 2 st' rfl (by decide) h sampleFiles_ok hr, by rw [h2]; rfl⟩

/-- After the first call of the accident, thread 1 was given `a`, which is the one file it has taken. -/
example : ∃ sp st', sdInit sampleSpool = ok sp ∧ SdReach (sdStart sp sampleFiles 2) st' ∧
    returnedTo st' 1 = (takenBy st' 1).map (fun m => activePath (ascii "/s") m.1) ∧ returnedTo st' 1 = [ascii "/s/active/a"] ∧
    (∀ m ∈ st'.moved, sdEntry m.2.1 = true ∧ m.2.1.head? ≠ some 46) := by
  obtain ⟨sp, h⟩ := sampleSpool_ok
  have hk : (match sdInit sampleSpool with
    | ok sp => match sdRun (spoolAccident.take 8) (sdStart sp sampleFiles 2) with
      | some (ok st') => decide (st'.outs = [(1, some (ascii "/s/active/a"))] ∧ st'.pc 1 = .idle)
      | _ => false
    | _ => false) = true := by decide +kernel
  rw [h] at hk
  simp only at hk
  split at hk
  · rename_i st' hst
    obtain ⟨h1, h2⟩ := of_decide_eq_true hk
    have hr := sdRun_reach hst SdReach.start
    exact ⟨sp, st', h, hr, C102_returned sampleSpool (ascii "/s") sp sampleFiles 2 st' 1 rfl (by decide) h sampleFiles_ok hr h2,
      by simp [returnedTo, h1], C102_visible sampleSpool (ascii "/s") sp sampleFiles 2 st' rfl (by decide) h sampleFiles_ok hr⟩
  · cases hk

/-- Two threads: 2 waits while 1 is at the `rename`; 1 can go on, without undefined behaviour, and moves the file. -/
example : ∃ sp st st', sdInit sampleSpool = ok sp ∧ SdReach (sdStart sp sampleFiles 2) st ∧ st.pc 2 = .wait ∧
    sdStep st (.rename 1 true) = some (ok st') ∧ (∀ j, Inside (st.pc j) = true → j = 1) ∧
    (st'.fs (ascii "/s/incoming/.b") = some ⟨1, true⟩ ∨
      (∃ t n, ascii "/s/incoming/.b" = incomingPath (ascii "/s") n ∧ st'.fs (activePath (ascii "/s") n) = some ⟨1, true⟩ ∧ st'.moved = st.moved ++ [(t, n, 1)]) ∨
      (∃ t, st.owner = some t ∧ ascii "/s/incoming/.b" = activePath (ascii "/s") st.dent)) ∧
    ∃ u ev st'', u ≠ 2 ∧ st.owner = some u ∧ ev.thread = some u ∧ sdStep st ev = some (ok st'') := by
  obtain ⟨sp, h⟩ := sampleSpool_ok
  have hk : (match sdInit sampleSpool with
    | ok sp => match sdRun ([.call 2, .call 1] ++ (spoolAccident.drop 1).take 4) (sdStart sp sampleFiles 2) with
      | some (ok st) => decide (st.pc 2 = .wait ∧ Inside (st.pc 1) = true ∧ st.fs (ascii "/s/incoming/.b") = some ⟨1, true⟩ ∧
          (sdStep st (.rename 1 true)).isSome = true ∧ sdStep st (.lock 2) = none)
      | _ => false
    | _ => false) = true := by decide +kernel
  rw [h] at hk
  simp only at hk
  split at hk
  · rename_i st hst
    obtain ⟨h1, h2, h3, h4, -⟩ := of_decide_eq_true hk
    have hr := sdRun_reach hst SdReach.start
    obtain ⟨r, h4⟩ := Option.isSome_iff_exists.mp h4
    obtain ⟨st', rfl⟩ := C102_safe sampleSpool (ascii "/s") sp sampleFiles 2 st (.rename 1 true) r rfl (by decide) h sampleFiles_ok hr h4
    refine ⟨sp, st, st', h, hr, h1, h4,
      fun j hj => C102_exclusive sampleSpool (ascii "/s") sp sampleFiles 2 st j 1 rfl (by decide) h sampleFiles_ok hr hj h2,
      C102_keeps sampleSpool (ascii "/s") sp sampleFiles 2 st st' (.rename 1 true) rfl (by decide) h sampleFiles_ok hr h4
        ⟨fun _ _ e => SdEv.noConfusion e, fun _ e => SdEv.noConfusion e⟩ _ _ h3, ?_⟩
    rcases C102_no_deadlock sampleSpool (ascii "/s") sp sampleFiles 2 st 2 rfl (by decide) h sampleFiles_ok hr (by rw [h1]; exact fun e => SdPc.noConfusion e)
      with ⟨ev, st2, e1, e2⟩ | ⟨-, h5⟩
    · exfalso
      have ho := ((sdReach_inv (sdStart_inv (sdInit_spool (w := sampleSpool) rfl (by decide) h) sampleFiles_ok) hr).own 1).mp h2
      cases ev <;> simp only [SdEv.thread, Option.some.injEq, reduceCtorEq] at e1 <;> subst e1 <;> simp [sdStep, h1, ho] at e2
    · exact h5
  · cases hk

end Wdns
