import Verif.Model.ArgvCleanup
import Verif.Lemmas.Argv
import Verif.Props.ArgvChecks
import Verif.Props.ArgvLimits

/-!
# C119: after a command line has been processed, everything stored for it can be given back
-/

namespace Wdns
open Outcome

/-- The strings stored in the variable of an entry of type "string": those of an array, that of an option given. -/
def Spec.storedTexts (e : AEntry) : List (List UInt8) :=
  match e.array, e.used, e.var with
  | true, _, some (.many vs) => vs.filterMap fun v => match v with | .str t => t | _ => none
  | false, true, some (.one (.str (some t))) => [t]
  | _, _, _ => []

/-- Everything stored: the strings of the entries in front of the last. -/
def Spec.allStored (g : List AEntry) : List (List UInt8) :=
  ((g.takeWhile fun e => e.short ≠ 255).filter fun e => e.ty = 5).flatMap Spec.storedTexts

/-- What an entry may look like after the clean-up: an array is empty, a string that was given is gone, everything else is
as it was. -/
def Spec.CleanedUp (e e' : AEntry) : Prop :=
  (e.array = true → e' = { e with var := some (.many []) }) ∧
  (e.array = false → e.used = true → e.ty = 5 → ∃ v, e' = { e with var := some (.one v) }) ∧
  (e.array = false → e.used = false ∨ e.ty ≠ 5 → e' = e)

theorem freeVals_ok : ∀ {vs : List AVal}, (∀ v ∈ vs, ∃ t, v = .str t) →
    freeVals vs = ok (vs.filterMap fun v => match v with | .str t => t | _ => none)
  | [], _ => rfl
  | v :: vs, h => by
    obtain ⟨t, rfl⟩ := h v (by simp)
    have ih := freeVals_ok (vs := vs) fun x hx => h x (by simp [hx])
    cases t with
    | none => simp [freeVals, ih]
    | some t => simp [freeVals, ih]

/-- What has to hold of an entry for the clean-up. -/
def Freeable (e : AEntry) : Prop :=
  (e.array = true → ∃ vs, e.var = some (.many vs) ∧ (e.ty = 5 → ∀ v ∈ vs, ∃ t, v = .str t)) ∧
  (e.array = false → e.used = true → e.ty = 5 → ∃ t, e.var = some (.one (.str t)))

theorem cleanupEntry_ok {e : AEntry} (h : Freeable e) :
    ∃ e', cleanupEntry e = ok (e', if e.ty = 5 then Spec.storedTexts e else []) ∧ Spec.CleanedUp e e' := by
  obtain ⟨h1, h2⟩ := h
  rcases e with ⟨sh, lo, ty, ar, ma, us, va⟩
  cases ar with
  | true =>
    obtain ⟨vs, rfl, h⟩ := h1 rfl
    refine ⟨⟨sh, lo, ty, true, ma, us, some (.many [])⟩, ?_, by simp [Spec.CleanedUp]⟩
    by_cases ht : ty = 5
    · subst ht
      simp only [cleanupEntry, if_true, freeVals_ok (h rfl), ok_bind, Spec.storedTexts]
    · simp only [cleanupEntry, if_true, if_neg ht, ok_bind]
  | false =>
    by_cases hu : us = true ∧ ty = 5
    · obtain ⟨rfl, rfl⟩ := hu
      obtain ⟨t, rfl⟩ := h2 rfl rfl rfl
      refine ⟨⟨sh, lo, 5, false, ma, true, some (.one (danglingVal (.str t)))⟩, ?_, by simp [Spec.CleanedUp]⟩
      cases t <;> simp [cleanupEntry, freeVals, Spec.storedTexts]
    · refine ⟨⟨sh, lo, ty, false, ma, us, va⟩, ?_, ⟨fun h => (by cases h), fun _ a b => absurd ⟨a, b⟩ hu, fun _ _ => rfl⟩⟩
      · simp only [cleanupEntry, if_neg hu, Bool.false_eq_true, if_false]
        by_cases ht : ty = 5
        · have : us = false := by cases us <;> simp_all
          subst this
          simp [Spec.storedTexts]
        · simp [ht]

theorem argvCleanup_ok : ∀ {g : List AEntry}, lastIdx g < g.length →
    (∀ i < lastIdx g, ∀ e, g[i]? = some e → Freeable e) →
    ∃ g', argvCleanup g = ok (g', Spec.allStored g) ∧ g'.length = g.length ∧
      (∀ i < lastIdx g, ∀ e, g[i]? = some e → ∃ e', g'[i]? = some e' ∧ Spec.CleanedUp e e') ∧
      ∀ i, lastIdx g ≤ i → g'[i]? = g[i]?
  | [], h, _ => by simp at h
  | e :: es, h, hf => by
    by_cases hl : e.short = argvLast
    · refine ⟨e :: es, ?_, rfl, ?_, fun _ _ => rfl⟩
      · rw [argvCleanup, if_pos hl]
        have : e.short = 255 := hl
        simp [Spec.allStored, this]
      · intro i hi
        exfalso
        simp [lastIdx, List.findIdx_cons, hl] at hi
    · have hs : lastIdx (e :: es) = lastIdx es + 1 := by simp [lastIdx, List.findIdx_cons, hl]
      have h255 : e.short ≠ 255 := hl
      rw [hs] at h hf ⊢
      obtain ⟨e', h1, h2⟩ := cleanupEntry_ok (hf 0 (by omega) e (by simp))
      obtain ⟨g', h3, h4, h5, h6⟩ := argvCleanup_ok (g := es) (by simpa using h)
        (fun i hi x hx => hf (i + 1) (by omega) x (by simpa using hx))
      refine ⟨e' :: g', ?_, by simp [h4], ?_, ?_⟩
      · rw [argvCleanup, if_neg hl, h1, ok_bind, h3, ok_bind]
        congr 2
        simp only [Spec.allStored]
        rw [List.takeWhile_cons_of_pos (by simpa using h255)]
        by_cases ht : e.ty = 5 <;> simp [ht]
      · intro i hi x hx
        cases i with
        | zero => simp at hx; subst hx; exact ⟨e', rfl, h2⟩
        | succ i => exact h5 i (by omega) x (by simpa using hx)
      · intro i hi
        cases i with
        | zero => omega
        | succ i => simpa using h6 i (by omega)

/-- The string copied by `string_to_value`. -/
theorem stored_text {cfg : ACfg} {a : Option (List UInt8)} {e e' : AEntry} {c : Bool}
    (h : stringToValue cfg a e = ok (c, e')) : 
    (e.ty = 5 → e.array = false → ∃ t, e'.var = some (.one (.str (some t)))) ∧
    (e.array = true → ∀ vs, e.var = some (.many vs) → ∃ vs', e'.var = some (.many vs') ∧
      (e.ty = 5 → (∀ v ∈ vs, ∃ t, v = AVal.str t) → ∀ v ∈ vs', ∃ t, v = AVal.str t)) := by
  have h5 : ∀ old v, convert cfg 5 a old = ok v → ∃ t, v = .str (some t) := by
    intro old v h
    cases a with
    | none => simp [convert] at h
    | some s => simp [convert] at h; exact ⟨s, h.symm⟩
  unfold stringToValue at h
  split at h
  · rename_i ht
    cases h
    refine ⟨fun h => by omega, fun _ vs hv => ⟨vs, hv, fun h => by omega⟩⟩
  · split at h
    · rename_i ws har hva
      rw [bind_eq_ok] at h; obtain ⟨v, hv, h⟩ := h; cases h
      refine ⟨fun _ hf => (by rw [har] at hf; cases hf), fun _ vs hvs => ⟨_, rfl, fun ht hall x hx => ?_⟩⟩
      rw [hva] at hvs
      cases hvs
      rw [ht] at hv
      rcases List.mem_append.mp hx with hx | hx
      · exact hall x hx
      · simp at hx
        subst hx
        obtain ⟨t, ht⟩ := h5 _ _ hv
        exact ⟨some t, ht⟩
    · rename_i old har hva
      rw [bind_eq_ok] at h; obtain ⟨v, hv, h⟩ := h; cases h
      refine ⟨fun ht _ => ?_, fun hf => by rw [har] at hf; cases hf⟩
      rw [ht] at hv
      obtain ⟨t, rfl⟩ := h5 _ _ hv
      exact ⟨t, rfl⟩
    · cases h

/-- The entries during the processing: an option of type "string" holds a string (or NULL), or it is still as it was at the
start — and then, unless it started with a string (`D`), it has not been given or waits for its value. -/
def OwnedAt (D : Prop) (waiting : List (Option Nat)) (i : Nat) (e : AEntry) : Prop :=
  (e.array = true → ∃ vs, e.var = some (.many vs) ∧ (e.ty = 5 → ∀ v ∈ vs, ∃ t, v = .str t)) ∧
  (e.array = false → e.ty = 5 → (∃ t, e.var = some (.one (.str t))) ∨ (¬ D ∧ (e.used = false ∨ some i ∈ waiting)))

/-- See `OwnedAt`. -/
def Owned (D : Prop) (n : Nat) (s : AState) : Prop :=
  s.tail ≤ s.queue.length ∧ ∀ i < n, ∀ e, s.grid[i]? = some e → OwnedAt D (s.queue.drop s.tail) i e

theorem OwnedAt.mono {D : Prop} {w w' : List (Option Nat)} {i : Nat} {e : AEntry} (h : OwnedAt D w i e)
    (hw : some i ∈ w → some i ∈ w') : OwnedAt D w' i e :=
  ⟨h.1, fun a b => (h.2 a b).imp id fun ⟨c, d⟩ => ⟨c, d.imp id hw⟩⟩

theorem OwnedAt.stored {D D' : Prop} {w w' : List (Option Nat)} {i : Nat} {e e0 e' : AEntry} {a : Option (List UInt8)}
    {c : Bool} {cfg : ACfg} (h : OwnedAt D w i e0) (h0 : ∃ u, e = { e0 with used := u })
    (hv : stringToValue cfg a e = ok (c, e')) (u : Bool) : OwnedAt D' w' i { e' with used := u } := by
  obtain ⟨h1, h2⟩ := stored_text hv
  obtain ⟨v, hr⟩ := stringToValue_core hv
  obtain ⟨u0, rfl⟩ := h0
  dsimp only at hr
  have ha : e'.array = e0.array := by rw [hr]
  have ht : e'.ty = e0.ty := by rw [hr]
  refine ⟨fun hh => ?_, fun hh hh' => .inl ?_⟩
  · obtain ⟨vs, hvs, hs⟩ := h.1 (ha ▸ hh)
    obtain ⟨vs', g1, g2⟩ := h2 (ha ▸ hh) vs hvs
    exact ⟨vs', g1, fun t5 => g2 (ht ▸ t5) (hs (ht ▸ t5))⟩
  · obtain ⟨t, g⟩ := h1 (ht ▸ hh') (ha ▸ hh)
    exact ⟨some t, g⟩

theorem Owned.set {D : Prop} {n : Nat} {s : AState} {i : Nat} {e' : AEntry} {q : List (Option Nat)} {t : Nat}
    {cap : Nat} {okay : Bool} {stdin : List UInt8} {fds opens : Nat} (h : Owned D n s) (ht : t ≤ q.length)
    (hw : ∀ j, j ≠ i → some j ∈ s.queue.drop s.tail → some j ∈ q.drop t)
    (he : i < n → OwnedAt D (q.drop t) i e') : Owned D n ⟨s.grid.set i e', q, cap, t, okay, stdin, fds, opens⟩ := by
  refine ⟨ht, fun j hj x hx => ?_⟩
  dsimp only at hx ⊢
  rw [List.getElem?_set] at hx
  split at hx
  · rename_i hij
    subst hij
    split at hx
    · cases hx; exact he hj
    · cases hx
  · rename_i hij
    exact (h.2 j hj x hx).mono (hw j (Ne.symm hij))

theorem owned_inv (cfg : ACfg) (D : Prop) (n : Nat) : AInv cfg (Owned D n) where
  bad _ h := h
  arg i close s s' hs h := by
    unfold doArg at h
    rw [bind_eq_ok] at h
    obtain ⟨e, he, h⟩ := h
    rw [entryAt_ok] at he
    dsimp only at h
    rw [bind_eq_ok] at h
    obtain ⟨clash, _, h⟩ := h
    split at h
    · rw [bind_eq_ok] at h
      obtain ⟨⟨c, e'⟩, hr, h⟩ := h
      cases h
      dsimp only
      rw [List.set_set]
      refine hs.set hs.1 (fun _ _ => id) fun hn => ?_
      exact (hs.2 i hn e he).stored ⟨true, rfl⟩ hr e'.used
    · split at h
      · cases h
        refine hs.set (by simp; have := hs.1; omega) (fun j _ hj => ?_) fun hn => ?_
        · rw [List.drop_append]; exact List.mem_append_left _ hj
        · refine ⟨(hs.2 i hn e he).1, fun a b => ((hs.2 i hn e he).2 a b).imp id fun g => ⟨g.1, .inr ?_⟩⟩
          rw [List.drop_append_of_le_length hs.1]; simp
      · cases h
  value i e v s b hs he h := by
    obtain ⟨hq, a, c, hv⟩ := h
    obtain ⟨hl, hg⟩ := List.getElem?_eq_some_iff.mp hq
    refine hs.set (by omega) (fun j hj hm => ?_) fun hn => ?_
    · rw [List.drop_eq_getElem_cons hl, hg] at hm
      rcases List.mem_cons.mp hm with hm | hm
      · cases hm; exact absurd rfl hj
      · exact hm
    · exact (hs.2 i hn e he).stored ⟨e.used, rfl⟩ hv e.used
  pos i e v s b hs he h := by
    obtain ⟨_, a, c, hv⟩ := h
    exact hs.set hs.1 (fun _ _ => id) fun hn => (hs.2 i hn e he).stored ⟨e.used, rfl⟩ hv true
  push s hs _ := by
    refine ⟨by show s.tail ≤ (s.queue ++ [none]).length; simp; have := hs.1; omega, fun i hn e he => ?_⟩
    refine (hs.2 i hn e he).mono fun h => ?_
    show _ ∈ (s.queue ++ [none]).drop s.tail
    rw [List.drop_append]; exact List.mem_append_left _ h
  pop s hs hq := by
    obtain ⟨hl, hg⟩ := List.getElem?_eq_some_iff.mp hq
    refine ⟨hl, fun i hn e he => ?_⟩
    refine (hs.2 i hn e he).mono fun h => ?_
    rw [List.drop_eq_getElem_cons hl, hg] at h
    rcases List.mem_cons.mp h with h | h
    · cases h
    · exact h
  stdin _ _ h := h
  files _ _ _ h := h

theorem preLoop_map {n : Nat} : ∀ {g g' : List AEntry} {i : Nat} {prev : Option AEntry} {b1 b2 : Bool},
    preLoop n g i prev b1 b2 = ok (some g') →
    g' = g.map fun e => { e with used := false, var := if e.array then some (.many []) else e.var }
  | [], g', _, _, _, _, h => by rw [preLoop] at h; cases h; rfl
  | e :: es, g', i, prev, b1, b2, h => by
    rw [preLoop] at h
    iterate 7
      split at h
      · cases h
    rw [bind_eq_ok] at h
    obtain ⟨r, h1, h⟩ := h
    cases r with
    | none => cases h
    | some es' =>
      cases h
      rw [preLoop_map h1]
      rfl

/-- The array at the start. -/
theorem preprocess_start {g g' : List AEntry} (h : preprocess g = ok (some g')) {i : Nat} (hi : i < lastIdx g) {e : AEntry}
    (he : g'[i]? = some e) : ∃ e0, g[i]? = some e0 ∧
      e = { e0 with used := false, var := if e0.array then some (.many []) else e0.var } := by
  unfold preprocess at h
  dsimp only at h
  change (if lastIdx g = g.length then ub else preLoop (lastIdx g) (g.take (lastIdx g)) 0 none false false >>= fun r =>
    ok (r.map (· ++ g.drop (lastIdx g)))) = ok (some g') at h
  split at h
  · cases h
  · rw [bind_eq_ok] at h
    obtain ⟨r, h1, h⟩ := h
    have hle : lastIdx g ≤ g.length := List.findIdx_le_length
    cases r with
    | none => cases h
    | some es' =>
      cases h
      have h2 := preLoop_map h1
      subst h2
      rw [List.getElem?_append_left (by simp; omega), List.getElem?_map, List.getElem?_take, if_pos hi] at he
      cases h3 : g[i]? with
      | none => rw [h3] at he; cases he
      | some e0 => rw [h3] at he; cases he; exact ⟨e0, rfl, rfl⟩

theorem owned_start {g g0 : List AEntry} {cap : Nat} {stdin : List UInt8} {fds : Nat} {D : Prop}
    (hp : preprocess g = ok (some g0))
    (hD : D → ∀ i < lastIdx g, ∀ e, g[i]? = some e → e.array = false → e.ty = 5 → ∃ t, e.var = some (.one (.str t))) :
    Owned D (lastIdx g) (startState g0 cap stdin fds) := by
  refine ⟨Nat.le_refl _, fun i hi e he => ?_⟩
  obtain ⟨e0, h0, rfl⟩ := preprocess_start hp hi he
  refine ⟨fun ha => ⟨[], ?_, by simp⟩, fun ha h5 => ?_⟩
  · have : e0.array = true := ha
    simp [this]
  · by_cases d : D
    · obtain ⟨t, ht⟩ := hD d i hi e0 h0 ha h5
      have : e0.array = false := ha
      exact .inl ⟨t, by simp [this, ht]⟩
    · exact .inr ⟨d, .inl rfl⟩

theorem result_core {cfg : ACfg} {fuel : Nat} {g g0 : List AEntry} {argv : List (List UInt8)} {stdin : List UInt8}
    {fds : Nat} {r : AResult} (h : argvProcess cfg fuel g argv stdin fds = ok r) (hp : preprocess g = ok (some g0)) :
    coresOf r.grid = coresOf g := by
  obtain ⟨s, h1, h2⟩ := process_inv_any (shape_inv cfg (coresOf g)) h hp (fun _ => (preprocess_core hp).1)
  rw [← h2]; exact h1

/-- **C119.** After a command line has been accepted — whatever the variables held before — the clean-up gives back every
string stored in a variable, once, and nothing that was not stored by the processing; it leaves the arrays empty and the
variables of all other options, among them the strings of the options not given, alone. -/
theorem C119_accepted {cfg : ACfg} {fuel : Nat} {g : List AEntry} {argv : List (List UInt8)} {stdin : List UInt8}
    {fds : Nat} {r : AResult} (h : argvProcess cfg fuel g argv stdin fds = ok r) (hn : r.noError = true) :
    ∃ g', argvCleanup r.grid = ok (g', Spec.allStored r.grid) ∧ g'.length = r.grid.length ∧
      (∀ i < lastIdx g, ∀ e, r.grid[i]? = some e → ∃ e', g'[i]? = some e' ∧ Spec.CleanedUp e e') ∧
      ∀ i, lastIdx g ≤ i → g'[i]? = r.grid[i]? := by
  obtain ⟨s, h1, h2, h3, _, _, h4⟩ := process_inv (owned_inv cfg False (lastIdx g)) h hn
    (fun g0 cap hp => owned_start hp False.elim)
  obtain ⟨s', h5, h6, _⟩ := process_inv (shape_inv cfg (coresOf g)) h hn (fun g0 cap hp => (preprocess_core hp).1)
  have hc : coresOf r.grid = coresOf g := by rw [← h6]; exact h5
  have hl := lastIdx_core hc
  have hg : lastIdx r.grid < r.grid.length := by
    have : ∃ g0, preprocess g = ok (some g0) := by
      cases argv with
      | nil => cases h
      | cons a as =>
        rw [argvProcess, bind_eq_ok] at h
        obtain ⟨x, hx, h⟩ := h
        cases x with
        | none => cases h; cases hn
        | some g0 => exact ⟨g0, hx⟩
    obtain ⟨g0, hp⟩ := this
    have := (preprocess_core hp).2.1
    have e := congrArg List.length hc
    simp [coresOf] at e
    omega
  have key := argvCleanup_ok hg (fun i hi e he => ?_)
  · rw [hl] at key; exact key
  · rw [hl] at hi
    obtain ⟨g1, g2⟩ := h1.2 i hi e (by rw [h2]; exact he)
    refine ⟨g1, fun a b c => ?_⟩
    rcases g2 a c with g2 | ⟨_, g2 | g2⟩
    · exact g2
    · rw [b] at g2; cases g2
    · rw [List.drop_of_length_le h4] at g2; cases g2

/-- **C119.** If the variables of the options of type "string" hold NULL or strings from `malloc` at the start, then what
is left of a command line that is refused can be given back as well. -/
theorem C119_refused_partial {cfg : ACfg} {fuel : Nat} {g g0 : List AEntry} {argv : List (List UInt8)} {stdin : List UInt8}
    {fds : Nat} {r : AResult} (h : argvProcess cfg fuel g argv stdin fds = ok r) (hp : preprocess g = ok (some g0))
    (hD : ∀ i < lastIdx g, ∀ e, g[i]? = some e → e.array = false → e.ty = 5 → ∃ t, e.var = some (.one (.str t))) :
    ∃ g', argvCleanup r.grid = ok (g', Spec.allStored r.grid) ∧ g'.length = r.grid.length ∧
      (∀ i < lastIdx g, ∀ e, r.grid[i]? = some e → ∃ e', g'[i]? = some e' ∧ Spec.CleanedUp e e') ∧
      ∀ i, lastIdx g ≤ i → g'[i]? = r.grid[i]? := by
  obtain ⟨s, h1, h2⟩ := process_inv_any (owned_inv cfg True (lastIdx g)) h hp (fun cap => owned_start hp fun _ => hD)
  have hc := result_core h hp
  have hl := lastIdx_core hc
  have hg : lastIdx r.grid < r.grid.length := by
    have := (preprocess_core hp).2.1
    have e := congrArg List.length hc
    simp [coresOf] at e
    omega
  have key := argvCleanup_ok hg (fun i hi e he => ?_)
  · rw [hl] at key; exact key
  · rw [hl] at hi
    obtain ⟨g1, g2⟩ := h1.2 i hi e (by rw [h2]; exact he)
    refine ⟨g1, fun a b c => ?_⟩
    rcases g2 a c with g2 | ⟨g2, _⟩
    · exact g2
    · exact absurd trivial g2

/-- A string, an array of strings, a number; the string has a literal as its default. -/
def cleanGrid : List AEntry :=
  [⟨115, none, 5, false, false, false, some (.one .junk)⟩, ⟨97, none, 5, true, false, false, some (.many [])⟩,
   ⟨110, none, 8, false, false, false, some (.one (.num 7))⟩, ⟨116, none, 5, false, false, false, some (.one .junk)⟩,
   ⟨255, none, 0, false, false, false, none⟩]

/-- The strings given back for `-s x -a y -n 3 -a z`. -/
example : (argvProcess argvCfg 1 cleanGrid [ascii "p", ascii "-s", ascii "x", ascii "-a", ascii "y", ascii "-n", ascii "3",
    ascii "-a", ascii "z"] [] 8 >>= fun r => argvCleanup r.grid >>= fun c => ok (r.noError, c.2, c.1[3]?.map (·.var))) =
    ok (true, [ascii "x", ascii "y", ascii "z"], some (some (.one .junk))) := by decide +kernel

/-- The hypotheses of `C119_accepted` and of `C119_refused_partial` (for a command line with an unknown option). -/
example : ∃ r, argvProcess argvCfg 1 cleanGrid [ascii "p", ascii "-s", ascii "x"] [] 8 = ok r ∧ r.noError = true := by
  refine ⟨_, rfl, ?_⟩; decide +kernel

example : ∃ r g0, argvProcess argvCfg 1 (cleanGrid.drop 1 |>.eraseIdx 2) [ascii "p", ascii "-a", ascii "x", ascii "-z"] [] 8 =
    ok r ∧ preprocess (cleanGrid.drop 1 |>.eraseIdx 2) = ok (some g0) ∧ r.noError = false ∧
    ∀ i < lastIdx (cleanGrid.drop 1 |>.eraseIdx 2), ∀ e, (cleanGrid.drop 1 |>.eraseIdx 2)[i]? = some e → e.array = false →
      e.ty = 5 → ∃ t, e.var = some (.one (.str t)) := by
  refine ⟨_, _, rfl, rfl, by decide +kernel, fun i hi e he h1 h2 => ?_⟩
  have : i = 0 ∨ i = 1 := by
    have : lastIdx (cleanGrid.drop 1 |>.eraseIdx 2) = 2 := by decide +kernel
    omega
  rcases this with rfl | rfl <;> cases he
  · cases h1
  · cases h2

/-- **C119, violated.** `-s` without its value is refused, but the option counts as given: the clean-up then passes the
default, which no `malloc` has returned, to `free`. -/
theorem C119_refused_violated : ∃ (cfg : ACfg) (g : List AEntry) (argv : List (List UInt8)) (r : AResult),
    argvProcess cfg 1 g argv [] 8 = ok r ∧ r.noError = false ∧ argvCleanup r.grid = ub :=
  ⟨argvCfg, cleanGrid, [ascii "p", ascii "-s"], _, rfl, by decide +kernel, by decide +kernel⟩

/-- **C119, violated.** A second clean-up of the same array gives the strings back again: the variables still hold the
pointers. -/
theorem C119_twice_violated : ∃ (cfg : ACfg) (g : List AEntry) (argv : List (List UInt8)) (r : AResult)
    (c : List AEntry × List (List UInt8)),
    argvProcess cfg 1 g argv [] 8 = ok r ∧ r.noError = true ∧ argvCleanup r.grid = ok c ∧ argvCleanup c.1 = ub :=
  ⟨argvCfg, cleanGrid, [ascii "p", ascii "-s", ascii "x"], _, _, rfl, by decide +kernel, rfl, by decide +kernel⟩

/-- **C119.** Without an option of type "string" given, a second clean-up finds nothing. -/
theorem C119_twice_partial {g g' : List AEntry} {fs : List (List UInt8)} (h : argvCleanup g = ok (g', fs))
    (hs : ∀ e ∈ g.takeWhile (fun e => e.short ≠ 255), e.array = true ∨ e.used = false ∨ e.ty ≠ 5) :
    argvCleanup g' = ok (g', []) := by
  induction g generalizing g' fs with
  | nil => cases h
  | cons e es ih =>
    rw [argvCleanup] at h
    split at h
    · rename_i hl; cases h; rw [argvCleanup, if_pos hl]
    · rename_i hl
      have h255 : e.short ≠ 255 := hl
      rw [List.takeWhile_cons_of_pos (by simpa using h255)] at hs
      rw [bind_eq_ok] at h; obtain ⟨⟨e1, f1⟩, h1, h⟩ := h
      rw [bind_eq_ok] at h; obtain ⟨⟨g2, f2⟩, h2, h⟩ := h
      cases h
      have ih := ih h2 fun x hx => hs x (List.mem_cons_of_mem _ hx)
      have key : e1.short = e.short ∧ cleanupEntry e1 = ok (e1, []) := by
        unfold cleanupEntry at h1
        split at h1
        · rename_i ha
          split at h1
          · rw [bind_eq_ok] at h1; obtain ⟨f, _, h1⟩ := h1; cases h1
            exact ⟨rfl, by simp [cleanupEntry, ha, freeVals]⟩
          · cases h1
        · rename_i ha
          rcases hs e (by simp) with h' | h' | h'
          · exact absurd h' ha
          · rw [if_neg (by simp [h'])] at h1; cases h1
            exact ⟨rfl, by simp [cleanupEntry, ha, h']⟩
          · rw [if_neg (by simp [h'])] at h1; cases h1
            exact ⟨rfl, by simp [cleanupEntry, ha, h']⟩
      have hl1 : e1.short ≠ argvLast := by rw [key.1]; exact hl
      dsimp only
      rw [argvCleanup, if_neg hl1, key.2, ok_bind, ih, ok_bind]
      rfl

example : ∃ c, argvCleanup (cleanGrid.drop 1) = ok c ∧ ∀ e ∈ (cleanGrid.drop 1).takeWhile (fun e => e.short ≠ 255),
    e.array = true ∨ e.used = false ∨ e.ty ≠ 5 := ⟨_, rfl, by decide +kernel⟩

end Wdns
