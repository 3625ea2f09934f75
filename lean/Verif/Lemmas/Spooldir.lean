import Verif.Spec.Spooldir
import Verif.Lemmas.Ubuf

/-!
# Lemmas: the spool directory
-/

namespace Wdns
open Outcome Wdns.Spec

theorem cellsStr_spec {s : List UInt8} (h : (0 : UInt8) ∉ s) : ∀ v, cellsStr (s.map some ++ some 0 :: v) = ok s := by
  induction s with
  | nil => intro v; simp [cellsStr]
  | cons c s ih =>
    intro v
    simp only [List.mem_cons, not_or] at h
    simp only [List.map_cons, List.cons_append, cellsStr]
    rw [if_neg (fun e => h.1 e.symm), ih h.2 v]
    rfl

/-- The block of a buffer that holds a terminated string. -/
theorem block_split {u : Ubuf} {s : List UInt8} (h : Ubuf.Inv u (s ++ [0])) : ∃ v, u.v = s.map some ++ some 0 :: v := by
  obtain ⟨⟨h1, h2, h3, h4, h5⟩, -, -⟩ := h
  refine ⟨u.v.drop u.n, ?_⟩
  conv => lhs; rw [← List.take_append_drop u.n u.v, h5]
  simp

theorem block_str {u : Ubuf} {s : List UInt8} (h : Ubuf.Inv u (s ++ [0])) (hs : (0 : UInt8) ∉ s) : cellsStr u.v = ok s := by
  obtain ⟨v, hv⟩ := block_split h
  rw [hv, cellsStr_spec hs]

theorem sdCstr_spec {u : Ubuf} {s : List UInt8} (h : Ubuf.Inv u (s ++ [0])) (hs : (0 : UInt8) ∉ s) : sdCstr u = ok s := by
  obtain ⟨u', h1, h2⟩ := Ubuf.cterm_spec h
  rw [if_pos (by simp)] at h2
  rw [sdCstr, h1]
  exact block_str h2 hs

theorem stripLast_zero (s : List UInt8) : stripLast 0 (s ++ [0]) = s := by simp [stripLast]

theorem stripLast_no {s : List UInt8} (h : (0 : UInt8) ∉ s) : stripLast 0 s = s := by
  unfold stripLast
  rw [if_neg]
  intro h1
  exact h (List.mem_of_getLast? h1)

theorem term_no {s : List UInt8} (h : (0 : UInt8) ∉ s) : (if s.getLast? = some 0 then s else s ++ [0]) = s ++ [0] := by
  rw [if_neg]
  intro h1
  exact h (List.mem_of_getLast? h1)

theorem path_spec {u w : Ubuf} {s n : List UInt8} (hu : Ubuf.Inv u []) (hw : Ubuf.Inv w (s ++ [0])) (hs : (0 : UInt8) ∉ s) (hn : (0 : UInt8) ∉ n) :
    ∃ u', (do let u ← u.extend w; let u ← u.addFmt (47 :: n); u.cterm) = ok u' ∧ Ubuf.Inv u' (s ++ 47 :: n ++ [0]) := by
  obtain ⟨u1, e1, i1⟩ := Ubuf.extend_spec hu hw
  obtain ⟨u2, e2, i2⟩ := Ubuf.addFmt_spec i1 (47 :: n)
  rw [List.nil_append, stripLast_zero] at i2
  obtain ⟨u3, e3, i3⟩ := Ubuf.cterm_spec i2
  rw [term_no (by simp [hs, hn])] at i3
  exact ⟨u3, by rw [e1, ok_bind, e2, ok_bind, e3], i3⟩

theorem dir_spec {d s : List UInt8} (hd : (0 : UInt8) ∉ d) (hs : (0 : UInt8) ∉ s) :
    ∃ a a' u, (Ubuf.init 128).addCstr d = ok a ∧ a.addCstr s = ok a' ∧ a'.cterm = ok u ∧ Ubuf.Inv u (d ++ s ++ [0]) ∧ cellsStr u.v = ok (d ++ s) := by
  obtain ⟨a, e1, i1⟩ := Ubuf.addCstr_spec (Ubuf.inv_init 128) d
  obtain ⟨a', e2, i2⟩ := Ubuf.addCstr_spec i1 s
  rw [show stripLast 0 ([] : List UInt8) = [] from rfl, List.nil_append, stripLast_no hd] at i2
  obtain ⟨u, e3, i3⟩ := Ubuf.cterm_spec i2
  have h0 : (0 : UInt8) ∉ d ++ s := by simp [hd, hs]
  rw [term_no h0] at i3
  exact ⟨a, a', u, e1, e2, e3, i3, block_str i3 h0⟩

/-- The object of a spool directory at `d`. -/
structure SpoolAt (d : List UInt8) (sp : Spool) : Prop where
  noNul : (0 : UInt8) ∉ d
  dir : sp.dir = d ++ ascii "/incoming"
  active : Ubuf.Inv sp.active (d ++ ascii "/active" ++ [0])
  incoming : Ubuf.Inv sp.incoming (d ++ ascii "/incoming" ++ [0])
  fname : ∃ l, Ubuf.Inv sp.fname l

theorem incoming_eq (d n : List UInt8) : d ++ ascii "/incoming" ++ 47 :: n = incomingPath d n := by simp [incomingPath, ascii]
theorem active_eq (d n : List UInt8) : d ++ ascii "/active" ++ 47 :: n = activePath d n := by simp [activePath, ascii]

theorem ascii_noNul1 : (0 : UInt8) ∉ ascii "/incoming" := by decide
theorem ascii_noNul2 : (0 : UInt8) ∉ ascii "/active" := by decide

theorem incoming_noNul {d n : List UInt8} (hd : (0 : UInt8) ∉ d) (hn : (0 : UInt8) ∉ n) : (0 : UInt8) ∉ incomingPath d n := by
  have := ascii_noNul1
  rw [← incoming_eq]; simp [hd, hn, this]

theorem active_noNul {d n : List UInt8} (hd : (0 : UInt8) ∉ d) (hn : (0 : UInt8) ∉ n) : (0 : UInt8) ∉ activePath d n := by
  have := ascii_noNul2
  rw [← active_eq]; simp [hd, hn, this]

theorem paths_differ (d n m : List UInt8) : incomingPath d n ≠ activePath d m := by
  intro h
  unfold incomingPath activePath at h
  have := List.append_cancel_left h
  simp [ascii] at this

theorem active_inj {d n m : List UInt8} (h : activePath d n = activePath d m) : n = m := by
  unfold activePath at h
  exact List.append_cancel_left (List.append_cancel_left h)

theorem incoming_inj {d n m : List UInt8} (h : incomingPath d n = incomingPath d m) : n = m := by
  unfold incomingPath at h
  exact List.append_cancel_left (List.append_cancel_left h)

theorem sdSrc_spec {d : List UInt8} {sp : Spool} (h : SpoolAt d sp) {n : List UInt8} (hn : (0 : UInt8) ∉ n) :
    ∃ u, sdSrc sp n = ok u ∧ Ubuf.Inv u (incomingPath d n ++ [0]) := by
  obtain ⟨u, h1, h2⟩ := path_spec (Ubuf.inv_init 128) h.incoming (by simp [h.noNul, ascii_noNul1]) hn
  rw [incoming_eq] at h2
  exact ⟨u, h1, h2⟩

theorem sdDst_spec {d : List UInt8} {sp : Spool} (h : SpoolAt d sp) {n : List UInt8} (hn : (0 : UInt8) ∉ n) :
    ∃ u, sdDst sp n = ok u ∧ Ubuf.Inv u (activePath d n ++ [0]) := by
  obtain ⟨l, hl⟩ := h.fname
  have h0 := Ubuf.clip_spec hl 0
  rw [List.take_zero] at h0
  obtain ⟨u, h1, h2⟩ := path_spec h0 h.active (by simp [h.noNul, ascii_noNul2]) hn
  rw [active_eq] at h2
  exact ⟨u, h1, h2⟩

theorem spool_fname {d : List UInt8} {sp : Spool} (h : SpoolAt d sp) {u : Ubuf} {l} (hu : Ubuf.Inv u l) : SpoolAt d { sp with fname := u } :=
  ⟨h.noNul, h.dir, h.active, h.incoming, l, hu⟩

theorem entry_noNul {n : List UInt8} (h : sdEntry n = true) : (0 : UInt8) ∉ n := by
  simp only [sdEntry, Bool.and_eq_true, Bool.not_eq_true', List.contains_eq_mem, decide_eq_false_iff_not] at h
  exact h.1.2

/-! ### the invariant -/

/-- What a thread is about to return. -/
def pendingOf : SdPc → List (List UInt8)
  | .unlock (some b) | .done (some b) => match cellsStr b with | ok s => [s] | _ => []
  | _ => []

/-- What a thread has got so far. -/
def PcOk (d : List UInt8) (sp : Spool) (dent : List UInt8) : SdPc → Prop
  | .stat => sdEntry dent = true ∧ dent.head? ≠ some 46
  | .exist src | .unlink src | .rename src => sdEntry dent = true ∧ dent.head? ≠ some 46 ∧ Ubuf.Inv src (incomingPath d dent ++ [0]) ∧
      Ubuf.Inv sp.fname (activePath d dent ++ [0])
  | .unlock (some b) | .done (some b) => ∃ s, cellsStr b = ok s
  | _ => True

theorem pcOk_outside {d sp dent sp' dent' c} (h : Inside c = false) (hc : PcOk d sp dent c) : PcOk d sp' dent' c := by
  cases c with
  | done r => cases r <;> exact hc
  | idle => trivial
  | wait => trivial
  | _ => simp [Inside] at h

structure SdInv (d : List UInt8) (st : SdState) : Prop where
  spool : SpoolAt d st.sp
  own : ∀ t, Inside (st.pc t) = true ↔ st.owner = some t
  at_ : ∀ t, PcOk d st.sp st.dent (st.pc t)
  files : FsOk st.fs st.next
  moved_lt : ∀ m ∈ st.moved, m.2.2 < st.next
  moved_at : ∀ m ∈ st.moved, ∀ p nd, st.fs p = some nd → nd.id = m.2.2 → p = activePath d m.2.1
  once : (st.moved.map (·.2.2)).Nodup
  acct : ∀ t, (takenBy st t).map (fun m => activePath d m.1) = returnedTo st t ++ pendingOf (st.pc t)

theorem goto_pc (st : SdState) (t : Nat) (c : SdPc) (i : Nat) : (st.goto t c).pc i = if i = t then c else st.pc i := rfl

/-- A step of one thread that leaves the files alone. -/
theorem inv_goto {d : List UInt8} {st : SdState} (h : SdInv d st) {t : Nat} {c : SdPc} {sp : Spool} {dent : List UInt8} {owner : Option Nat}
    (hsp : SpoolAt d sp) (hown : Inside c = true ↔ owner = some t) (hoth : ∀ i, i ≠ t → (owner = some i ↔ st.owner = some i))
    (hsame : st.owner = some t ∨ sp = st.sp ∧ dent = st.dent) (hc : PcOk d sp dent c) (hp : pendingOf c = pendingOf (st.pc t)) :
    SdInv d ⟨sp, dent, owner, (st.goto t c).pc, st.fs, st.next, st.moved, st.outs⟩ := by
  refine ⟨hsp, ?_, ?_, h.files, h.moved_lt, h.moved_at, h.once, ?_⟩
  · intro i
    show Inside (if i = t then c else st.pc i) = true ↔ owner = some i
    by_cases hi : i = t
    · rw [if_pos hi, hi]; exact hown
    · rw [if_neg hi, h.own, hoth i hi]
  · intro i
    show PcOk d sp dent (if i = t then c else st.pc i)
    by_cases hi : i = t
    · rw [if_pos hi]; exact hc
    · rw [if_neg hi]
      rcases hsame with ho | ⟨rfl, rfl⟩
      · refine pcOk_outside ?_ (h.at_ i)
        cases hin : Inside (st.pc i) with
        | false => rfl
        | true => rw [h.own, ho] at hin; cases hin; exact absurd rfl hi
      · exact h.at_ i
  · intro i
    show (takenBy st i).map _ = returnedTo st i ++ pendingOf (if i = t then c else st.pc i)
    by_cases hi : i = t
    · rw [if_pos hi, hp, ← hi]; exact h.acct i
    · rw [if_neg hi]; exact h.acct i

/-- A step that changes the files only. -/
theorem inv_files {d : List UInt8} {st : SdState} (h : SdInv d st) {fs : SdFs} {next : Nat} (hf : FsOk fs next) (hn : st.next ≤ next)
    (hm : ∀ p nd, fs p = some nd → nd.id < st.next → st.fs p = some nd) : SdInv d { st with fs := fs, next := next } := by
  refine ⟨h.spool, h.own, h.at_, hf, fun m hm => Nat.lt_of_lt_of_le (h.moved_lt m hm) hn, ?_, h.once, h.acct⟩
  intro m hmm p nd hp hid
  exact h.moved_at m hmm p nd (hm p nd hp (by rw [hid]; exact h.moved_lt m hmm)) hid

theorem put_get {fs : SdFs} {p q : List UInt8} {x} : fs.put p x q = if q = p then x else fs q := rfl

theorem fsOk_remove {fs : SdFs} {next : Nat} (h : FsOk fs next) (p : List UInt8) : FsOk (fs.put p none) next := by
  have key : ∀ q nd, fs.put p none q = some nd → fs q = some nd := by
    intro q nd hq
    rw [put_get] at hq
    split at hq
    · cases hq
    · exact hq
  exact ⟨fun q nd hq => h.1 q nd (key q nd hq), fun q r a b ha hb hid => h.2 q r a b (key _ _ ha) (key _ _ hb) hid⟩

theorem fsOk_create {fs : SdFs} {next : Nat} (h : FsOk fs next) (p : List UInt8) (reg : Bool) : FsOk (fs.put p (some ⟨next, reg⟩)) (next + 1) := by
  constructor
  · intro q nd hq
    rw [put_get] at hq
    split at hq
    · cases hq; exact Nat.lt_succ_self _
    · have := h.1 q nd hq; omega
  · intro q r a b ha hb hid
    rw [put_get] at ha hb
    by_cases h1 : q = p <;> by_cases h2 : r = p
    · rw [h1, h2]
    · rw [if_pos h1] at ha; rw [if_neg h2] at hb
      cases ha
      have := h.1 r b hb
      simp only at hid; omega
    · rw [if_neg h1] at ha; rw [if_pos h2] at hb
      cases hb
      have := h.1 q a ha
      simp only at hid; omega
    · rw [if_neg h1] at ha; rw [if_neg h2] at hb
      exact h.2 q r a b ha hb hid

theorem fsOk_move {fs : SdFs} {next : Nat} (h : FsOk fs next) {s d : List UInt8} {nd : SdNode} (hs : fs s = some nd) :
    FsOk ((fs.put s none).put d (some nd)) next := by
  constructor
  · intro q x hq
    rw [put_get] at hq
    split at hq
    · cases hq; exact h.1 s nd hs
    · rw [put_get] at hq
      split at hq
      · cases hq
      · exact h.1 q x hq
  · intro q r a b ha hb hid
    rw [put_get, put_get] at ha hb
    by_cases h1 : q = d <;> by_cases h2 : r = d
    · rw [h1, h2]
    · rw [if_pos h1] at ha; rw [if_neg h2] at hb
      cases ha
      split at hb
      · cases hb
      · rename_i hrs
        exact absurd (h.2 r s b nd hb hs hid.symm) hrs
    · rw [if_neg h1] at ha; rw [if_pos h2] at hb
      cases hb
      split at ha
      · cases ha
      · rename_i hqs
        exact absurd (h.2 q s a nd ha hs hid) hqs
    · rw [if_neg h1] at ha; rw [if_neg h2] at hb
      split at ha
      · cases ha
      · split at hb
        · cases hb
        · exact h.2 q r a b ha hb hid

theorem inside_own {d st} (h : SdInv d st) {t c} (hpc : st.pc t = c) (hc : Inside c = true) : st.owner = some t := by
  rw [← h.own, hpc]; exact hc

/-- The moving step. -/
theorem inv_rename {d : List UInt8} {st : SdState} (h : SdInv d st) {t : Nat} {src : Ubuf} (hpc : st.pc t = .rename src) {nd : SdNode}
    (hs : st.fs (incomingPath d st.dent) = some nd) :
    SdInv d { st.goto t (.unlock (some st.sp.fname.detach.1.1)) with
          sp := { st.sp with fname := st.sp.fname.detach.2 }
          fs := (st.fs.put (incomingPath d st.dent) none).put (activePath d st.dent) (some nd)
          moved := st.moved ++ [(t, st.dent, nd.id)] } := by
  have ho := inside_own h hpc rfl
  have hat := h.at_ t
  rw [hpc] at hat
  obtain ⟨he, -, hsrc, hdst⟩ := hat
  have hblk : cellsStr st.sp.fname.v = ok (activePath d st.dent) := block_str hdst (active_noNul h.spool.noNul (entry_noNul he))
  have hmid : ∀ m ∈ st.moved, m.2.2 ≠ nd.id := by
    intro m hm e
    have := h.moved_at m hm _ nd hs e.symm
    exact paths_differ _ _ _ this
  refine ⟨spool_fname h.spool (Ubuf.detach_spec hdst), ?_, ?_, fsOk_move h.files hs, ?_, ?_, ?_, ?_⟩
  · intro i
    show Inside (if i = t then _ else st.pc i) = true ↔ st.owner = some i
    by_cases hi : i = t
    · rw [if_pos hi, hi, ho]; simp [Inside]
    · rw [if_neg hi, h.own]
  · intro i
    show PcOk d _ _ (if i = t then _ else st.pc i)
    by_cases hi : i = t
    · rw [if_pos hi]; exact ⟨_, hblk⟩
    · rw [if_neg hi]
      refine pcOk_outside ?_ (h.at_ i)
      cases hin : Inside (st.pc i) with
      | false => rfl
      | true => rw [h.own, ho] at hin; cases hin; exact absurd rfl hi
  · intro m hm
    rcases List.mem_append.mp hm with hm | hm
    · exact h.moved_lt m hm
    · simp only [List.mem_singleton] at hm; subst hm; exact h.files.1 _ _ hs
  · intro m hm p x hp hid
    have hp : ((st.fs.put (incomingPath d st.dent) none).put (activePath d st.dent) (some nd)) p = some x := hp
    rw [put_get, put_get] at hp
    rcases List.mem_append.mp hm with hm | hm
    · split at hp
      · cases hp; exact absurd hid.symm (hmid m hm)
      · split at hp
        · cases hp
        · exact h.moved_at m hm p x hp hid
    · simp only [List.mem_singleton] at hm
      subst hm
      split at hp
      · assumption
      · split at hp
        · cases hp
        · rename_i h2
          exact absurd (h.files.2 p _ x nd hp hs hid) h2
  · show ((st.moved ++ [(t, st.dent, nd.id)]).map (·.2.2)).Nodup
    rw [List.map_append, List.nodup_append]
    refine ⟨h.once, by simp, ?_⟩
    intro a ha b hb hab
    simp only [List.map_cons, List.map_nil, List.mem_singleton] at hb
    obtain ⟨m, hm, rfl⟩ := List.mem_map.mp ha
    exact hmid m hm (hab.trans hb)
  · intro i
    show ((st.moved ++ [(t, st.dent, nd.id)]).filterMap fun m => if m.1 = i then some m.2 else none).map _ =
      returnedTo st i ++ pendingOf (if i = t then _ else st.pc i)
    rw [List.filterMap_append, List.map_append]
    have := h.acct i
    unfold takenBy at this
    rw [this]
    by_cases hi : i = t
    · rw [if_pos hi]
      subst hi
      simp [pendingOf, hpc, Ubuf.detach, hblk]
    · rw [if_neg hi]
      simp [show t ≠ i from fun e => hi e.symm]

theorem sdStep_inv {d : List UInt8} {st : SdState} (h : SdInv d st) {ev : SdEv} {r : Outcome SdState} (hs : sdStep st ev = some r) :
    ∃ st', r = ok st' ∧ SdInv d st' := by
  cases ev with
  | call t =>
    simp only [sdStep] at hs
    split at hs
    · rename_i hpc
      cases hs
      refine ⟨_, rfl, inv_goto h h.spool ?_ (fun _ _ => Iff.rfl) (.inr ⟨rfl, rfl⟩) trivial (by simp [hpc, pendingOf])⟩
      have := h.own t
      rw [hpc] at this
      exact this
    · cases hs
  | lock t =>
    simp only [sdStep] at hs
    split at hs
    · rename_i hpc
      cases hs
      refine ⟨_, rfl, inv_goto h h.spool (by simp [Inside]) ?_ (.inr ⟨rfl, rfl⟩) trivial (by simp [hpc.1, pendingOf])⟩
      intro i hi
      rw [hpc.2]
      simp [Ne.symm hi]
    · cases hs
  | readdir t e =>
    simp only [sdStep] at hs
    split at hs
    · rename_i hpc
      have ho := inside_own h hpc rfl
      cases e with
      | none =>
        cases hs
        exact ⟨_, rfl, inv_goto h h.spool (by simp [Inside, SdState.goto, ho]) (fun _ _ => Iff.rfl) (.inl ho) trivial (by simp [hpc, pendingOf])⟩
      | some n =>
        simp only at hs
        split at hs
        · rename_i hn
          cases hs
          by_cases h46 : n.head? = some 46
          · rw [if_pos h46]
            exact ⟨_, rfl, inv_goto h h.spool (by simp [Inside, SdState.goto, ho]) (fun _ _ => Iff.rfl) (.inl ho) trivial (by simp [hpc, pendingOf])⟩
          · rw [if_neg h46]
            exact ⟨_, rfl, inv_goto h h.spool (by simp [Inside, SdState.goto, ho]) (fun _ _ => Iff.rfl) (.inl ho) ⟨hn, h46⟩ (by simp [hpc, pendingOf])⟩
        · cases hs
    · cases hs
  | rewind t =>
    simp only [sdStep] at hs
    split at hs
    · rename_i hpc
      have ho := inside_own h hpc rfl
      cases hs
      exact ⟨_, rfl, inv_goto h h.spool (by simp [Inside, SdState.goto, ho]) (fun _ _ => Iff.rfl) (.inl ho) trivial (by simp [hpc, pendingOf])⟩
    · cases hs
  | fstatat t good =>
    simp only [sdStep] at hs
    split at hs
    · rename_i hpc
      have ho := inside_own h hpc rfl
      have hat := h.at_ t
      rw [hpc] at hat
      have back : SdInv d (st.goto t .read) :=
        inv_goto h h.spool (by simp [Inside, SdState.goto, ho]) (fun _ _ => Iff.rfl) (.inl ho) trivial (by simp [hpc, pendingOf])
      simp only [Option.some.injEq] at hs
      subst hs
      split
      · split
        · obtain ⟨src, e1, i1⟩ := sdSrc_spec h.spool (entry_noNul hat.1)
          obtain ⟨dst, e2, i2⟩ := sdDst_spec h.spool (entry_noNul hat.1)
          rw [e1, e2]
          exact ⟨_, rfl, inv_goto h (spool_fname h.spool i2) (by simp [Inside, SdState.goto, ho]) (fun _ _ => Iff.rfl) (.inl ho) ⟨hat.1, hat.2, i1, i2⟩ (by simp [hpc, pendingOf])⟩
        · exact ⟨_, rfl, back⟩
      · exact ⟨_, rfl, back⟩
    · cases hs
  | exist t good =>
    simp only [sdStep] at hs
    split at hs
    · rename_i src hpc
      have ho := inside_own h hpc rfl
      have hat := h.at_ t
      rw [hpc] at hat
      simp only [Option.some.injEq] at hs
      subst hs
      rw [sdCstr_spec hat.2.2.2 (active_noNul h.spool.noNul (entry_noNul hat.1)), ok_bind]
      refine ⟨_, rfl, ?_⟩
      split
      · exact inv_goto h h.spool (by simp [Inside, SdState.goto, ho]) (fun _ _ => Iff.rfl) (.inl ho) hat (by simp [hpc, pendingOf])
      · exact inv_goto h h.spool (by simp [Inside, SdState.goto, ho]) (fun _ _ => Iff.rfl) (.inl ho) hat (by simp [hpc, pendingOf])
    · cases hs
  | unlink t good =>
    simp only [sdStep] at hs
    split at hs
    · rename_i src hpc
      have ho := inside_own h hpc rfl
      have hat := h.at_ t
      rw [hpc] at hat
      simp only [Option.some.injEq] at hs
      subst hs
      rw [sdCstr_spec hat.2.2.2 (active_noNul h.spool.noNul (entry_noNul hat.1)), ok_bind]
      refine ⟨_, rfl, ?_⟩
      have h1 : SdInv d (st.goto t (.rename src)) :=
        inv_goto h h.spool (by simp [Inside, SdState.goto, ho]) (fun _ _ => Iff.rfl) (.inl ho) hat (by simp [hpc, pendingOf])
      cases good with
      | false => exact h1
      | true =>
        refine inv_files h1 (next := st.next) (fsOk_remove h.files _) (Nat.le_refl _) ?_
        intro p nd hp _
        rw [if_pos rfl, put_get] at hp
        split at hp
        · cases hp
        · exact hp
    · cases hs
  | rename t good =>
    simp only [sdStep] at hs
    split at hs
    · rename_i src hpc
      have ho := inside_own h hpc rfl
      have hat := h.at_ t
      rw [hpc] at hat
      simp only [Option.some.injEq] at hs
      subst hs
      rw [sdCstr_spec hat.2.2.1 (incoming_noNul h.spool.noNul (entry_noNul hat.1)), ok_bind,
        sdCstr_spec hat.2.2.2 (active_noNul h.spool.noNul (entry_noNul hat.1)), ok_bind]
      split
      · rename_i nd hnd
        exact ⟨_, rfl, inv_rename h hpc hnd⟩
      · exact ⟨_, rfl, inv_goto h h.spool (by simp [Inside, SdState.goto, ho]) (fun _ _ => Iff.rfl) (.inl ho) trivial (by simp [hpc, pendingOf])⟩
    · cases hs
  | unlock t =>
    simp only [sdStep] at hs
    split at hs
    · rename_i r' hpc
      have ho := inside_own h hpc rfl
      have hat := h.at_ t
      rw [hpc] at hat
      simp only [Option.some.injEq] at hs
      subst hs
      rw [if_pos ho]
      refine ⟨_, rfl, inv_goto h h.spool (by simp [Inside]) ?_ (.inl ho) ?_ ?_⟩
      · intro i hi
        rw [ho]
        simp [Ne.symm hi]
      · cases r' <;> exact hat
      · rw [hpc]; cases r' <;> rfl
    · cases hs
  | ret t =>
    have key : ∀ (r' : Option (List (Option UInt8))) (o : Option (List UInt8)), st.pc t = .done r' → pendingOf (.done r') = o.toList →
        SdInv d { st.goto t .idle with outs := st.outs ++ [(t, o)] } := by
      intro r' o hpc hp
      have hno : st.owner ≠ some t := by
        intro e
        have := (h.own t).mpr e
        rw [hpc] at this
        cases this
      refine ⟨h.spool, ?_, ?_, h.files, h.moved_lt, h.moved_at, h.once, ?_⟩
      · intro i
        show Inside (if i = t then _ else st.pc i) = true ↔ st.owner = some i
        by_cases hi : i = t
        · rw [if_pos hi, hi]; simp [Inside, hno]
        · rw [if_neg hi, h.own]
      · intro i
        show PcOk d _ _ (if i = t then _ else st.pc i)
        by_cases hi : i = t
        · rw [if_pos hi]; trivial
        · rw [if_neg hi]; exact h.at_ i
      · intro i
        show (takenBy st i).map _ = ((st.outs ++ [(t, o)]).filterMap fun x => if x.1 = i then x.2 else none) ++ pendingOf (if i = t then _ else st.pc i)
        rw [h.acct i, List.filterMap_append]
        by_cases hi : i = t
        · subst hi
          rw [if_pos rfl, hpc, hp]
          cases o <;> simp [returnedTo, pendingOf]
        · rw [if_neg hi]
          simp [returnedTo, show t ≠ i from fun e => hi e.symm]
    simp only [sdStep] at hs
    split at hs
    · rename_i hpc
      cases hs
      exact ⟨_, rfl, key none none hpc rfl⟩
    · rename_i b hpc
      have hat := h.at_ t
      rw [hpc] at hat
      obtain ⟨s, hb⟩ := hat
      simp only [Option.some.injEq] at hs
      subst hs
      rw [hb, ok_bind]
      exact ⟨_, rfl, key (some b) (some s) hpc (by simp [pendingOf, hb])⟩
    · cases hs
  | create p reg =>
    simp only [sdStep, Option.some.injEq] at hs
    subst hs
    refine ⟨_, rfl, inv_files h (fsOk_create h.files p reg) (Nat.le_succ _) ?_⟩
    intro q nd hq hlt
    rw [put_get] at hq
    split at hq
    · cases hq; simp only at hlt; omega
    · exact hq
  | remove p =>
    simp only [sdStep, Option.some.injEq] at hs
    subst hs
    refine ⟨_, rfl, inv_files h (next := st.next) (fsOk_remove h.files p) (Nat.le_refl _) ?_⟩
    intro q nd hq _
    rw [put_get] at hq
    split at hq
    · cases hq
    · exact hq

theorem sdReach_inv {d : List UInt8} {st st' : SdState} (h : SdInv d st) (hr : SdReach st st') : SdInv d st' := by
  induction hr with
  | start => exact h
  | step _ hs ih =>
    obtain ⟨x, hx, hi⟩ := sdStep_inv ih hs
    cases hx
    exact hi

theorem sdStart_inv {d : List UInt8} {sp : Spool} {fs : SdFs} {next : Nat} (hsp : SpoolAt d sp) (hf : FsOk fs next) : SdInv d (sdStart sp fs next) :=
  ⟨hsp, by simp [sdStart, Inside], fun _ => trivial, hf, by simp [sdStart], by simp [sdStart], by simp [sdStart], by simp [sdStart, takenBy, returnedTo, pendingOf]⟩

end Wdns
