import Verif.Model.Argv

/-!
# Lemmas about the command-line model
-/

namespace Wdns
open Outcome

/-- An entry as the program wrote it: without what the processing changes. -/
def coreOf (e : AEntry) : AEntry := { e with used := false, var := none }

/-- The array as the program wrote it. -/
def coresOf (g : List AEntry) : List AEntry := g.map coreOf

theorem entryAt_ok {g : List AEntry} {i : Nat} {e : AEntry} : entryAt g i = ok e ↔ g[i]? = some e := by
  unfold entryAt
  cases g[i]? <;> simp

theorem stringToValue_core {cfg : ACfg} {a : Option (List UInt8)} {e : AEntry} {r : Bool × AEntry}
    (h : stringToValue cfg a e = ok r) : ∃ v, r.2 = { e with var := v } := by
  unfold stringToValue at h
  split at h
  · cases h; exact ⟨e.var, rfl⟩
  · split at h
    · rw [bind_eq_ok] at h; obtain ⟨v, _, h⟩ := h; cases h; exact ⟨_, rfl⟩
    · rw [bind_eq_ok] at h; obtain ⟨v, _, h⟩ := h; cases h; exact ⟨_, rfl⟩
    · cases h

theorem set_coresOf {g : List AEntry} {i : Nat} {e e' : AEntry} (h : g[i]? = some e) (hc : coreOf e' = coreOf e) :
    coresOf (g.set i e') = coresOf g := by
  unfold coresOf
  apply List.ext_getElem?
  intro k
  rw [List.getElem?_map, List.getElem?_map, List.getElem?_set]
  by_cases hk : i = k
  · subst hk
    obtain ⟨hl, he⟩ := List.getElem?_eq_some_iff.mp h
    simp [hl, he, hc]
  · simp [hk]

/-- The elementary changes of the state by the options under which an invariant has to be stable. -/
structure AInv0 (cfg : ACfg) (I : AState → Prop) : Prop where
  bad : ∀ s, I s → I { s with okay := false }
  arg : ∀ i close s s', I s → doArg cfg i close s = ok s' → I s'
  value : ∀ i e v s b, I s → s.grid[i]? = some e →
    (s.queue[s.tail]? = some (some i) ∧ ∃ a c, stringToValue cfg (some a) e = ok (c, { e with var := v })) →
    I { s with grid := s.grid.set i { e with var := v }, tail := s.tail + 1, okay := s.okay && b }
  pos : ∀ i e v s b, I s → s.grid[i]? = some e →
    ((e.short = argvMand ∨ e.short = argvMaybe) ∧ ∃ a c, stringToValue cfg (some a) e = ok (c, { e with var := v })) →
    I { s with grid := s.grid.set i { e with var := v, used := true }, okay := s.okay && b }
  push : ∀ s, I s → s.queue.length < s.cap → I { s with queue := s.queue ++ [none] }
  pop : ∀ s, I s → s.queue[s.tail]? = some none → I { s with tail := s.tail + 1 }

/-- All the elementary changes of the state, those by argument files included. -/
structure AInv (cfg : ACfg) (I : AState → Prop) : Prop extends AInv0 cfg I where
  stdin : ∀ s t, I s → I { s with stdin := t }
  files : ∀ s f o, I s → I { s with fds := f, opens := o }

variable {cfg : ACfg} {I : AState → Prop}

theorem scanGrid_some {p : AEntry → Bool} : ∀ {g : List AEntry} {i k : Nat}, scanGrid p g i = ok (some k) →
    ∃ e, i ≤ k ∧ g[k - i]? = some e ∧ p e ∧ e.short ≠ argvLast
  | [], i, k, h => by simp [scanGrid] at h
  | e :: es, i, k, h => by
    rw [scanGrid] at h
    split at h
    · cases h
    · rename_i hl
      split at h
      · rename_i hp; cases h; exact ⟨e, by omega, by simp, hp, hl⟩
      · obtain ⟨e', h1, h2, h3⟩ := scanGrid_some h
        refine ⟨e', by omega, ?_, h3⟩
        rw [show k - i = (k - (i + 1)) + 1 by omega, List.getElem?_cons_succ]; exact h2

theorem AInv0.value' (H : AInv0 cfg I) {i e} {a : List UInt8} {r : Bool × AEntry} {s : AState} (hs : I s)
    (he : entryAt s.grid i = ok e) (hv : stringToValue cfg (some a) e = ok r) (b : Bool) (hq : s.queue[s.tail]? = some (some i)) :
    I { s with grid := s.grid.set i r.2, tail := s.tail + 1, okay := s.okay && b } := by
  obtain ⟨v, hr⟩ := stringToValue_core hv
  rw [hr]
  exact H.value i e v s b hs (entryAt_ok.mp he) ⟨hq, a, r.1, by rw [hv, ← hr]⟩

theorem AInv0.pos' (H : AInv0 cfg I) {i e} {a : List UInt8} {r : Bool × AEntry} {s : AState} (hs : I s)
    (he : entryAt s.grid i = ok e) (hm : e.short = argvMand ∨ e.short = argvMaybe)
    (hv : stringToValue cfg (some a) e = ok r) (b : Bool) :
    I { s with grid := s.grid.set i { r.2 with used := true }, okay := s.okay && b } := by
  obtain ⟨v, hr⟩ := stringToValue_core hv
  rw [hr]
  exact H.pos i e v s b hs (entryAt_ok.mp he) ⟨hm, a, r.1, by rw [hv, ← hr]⟩

theorem clusterLoop_inv (H : AInv0 cfg I) (full : List UInt8) (close : Option (List UInt8)) :
    ∀ (cs : List UInt8) (first : Bool) (s s' : AState), I s → clusterLoop cfg full close cs first s = ok s' → I s'
  | [], _, s, s', hs, h => by rw [clusterLoop] at h; cases h; exact hs
  | c :: cs, first, s, s', hs, h => by
    rw [clusterLoop, bind_eq_ok] at h
    obtain ⟨m, _, h⟩ := h
    split at h
    · rw [bind_eq_ok] at h
      obtain ⟨s1, h1, h⟩ := h
      exact clusterLoop_inv H full close cs false s1 s' (H.arg _ _ _ _ hs h1) h
    · split at h
      · exact clusterLoop_inv H full close cs false s s' hs h
      · split at h
        · rename_i hc
          split at h
          · rename_i hq
            rw [bind_eq_ok] at h
            obtain ⟨e, he, h⟩ := h
            split at h
            · rw [bind_eq_ok] at h
              obtain ⟨r, hr, h⟩ := h
              cases h
              have := H.value' hs he hr true hq
              rw [Bool.and_true] at this
              exact this
            · exact clusterLoop_inv H full close cs false _ s' (H.bad _ hs) h
          · cases h
        · exact clusterLoop_inv H full close cs false _ s' (H.bad _ hs) h

theorem doShort_inv (H : AInv0 cfg I) (a : List UInt8) (s s' : AState) (hs : I s) (h : doShort cfg a s = ok s') : I s' := by
  unfold doShort at h
  dsimp only at h
  split at h
  · cases h; exact H.bad _ hs
  · exact clusterLoop_inv H _ _ _ _ _ _ hs h

theorem doLong_inv (H : AInv0 cfg I) {fileK : List UInt8 → AState → Outcome AState}
    (hf : ∀ p s s', I s → fileK p s = ok s' → I s') (a : List UInt8) (s s' : AState) (hs : I s)
    (h : doLong cfg fileK a s = ok s') : I s' := by
  unfold doLong at h
  dsimp only at h
  split at h
  · cases h; exact H.bad _ hs
  · rw [bind_eq_ok] at h
    obtain ⟨r, _, h⟩ := h
    split at h
    · cases h; exact H.bad _ hs
    · exact H.arg _ _ _ _ hs h
    · split at h
      · split at h
        · exact hf _ _ _ hs h
        · split at h
          · rename_i hq; cases h; exact H.push _ hs hq
          · cases h
      · split at h
        · cases h; exact hs
        · cases h; exact H.bad _ hs

theorem doValue_inv (H : AInv0 cfg I) {fileK : List UInt8 → AState → Outcome AState}
    (hf : ∀ p s s', I s → fileK p s = ok s' → I s') (a : List UInt8) (s s' : AState) (hs : I s)
    (h : doValue cfg fileK a s = ok s') : I s' := by
  unfold doValue at h
  rw [bind_eq_ok] at h
  obtain ⟨e0, _, h⟩ := h
  split at h
  · rename_i hc
    split at h
    · rename_i hq
      exact hf _ _ _ (H.pop _ hs hq) h
    · rename_i hq
      rw [bind_eq_ok] at h
      obtain ⟨e, he, h⟩ := h
      rw [bind_eq_ok] at h
      obtain ⟨r, hr, h⟩ := h
      cases h
      exact H.value' hs he hr r.1 hq
    · cases h
  · rw [bind_eq_ok] at h
    obtain ⟨m, hm, h⟩ := h
    split at h
    · rw [bind_eq_ok] at h
      obtain ⟨e, he, h⟩ := h
      rw [bind_eq_ok] at h
      obtain ⟨r, hr, h⟩ := h
      cases h
      obtain ⟨e', _, h1, h2, _⟩ := scanGrid_some hm
      rw [Nat.sub_zero, entryAt_ok.mp he] at h1
      cases h1
      simp at h2
      exact H.pos' hs he (.inl h2.1) hr r.1
    · rw [bind_eq_ok] at h
      obtain ⟨m, hm, h⟩ := h
      split at h
      · rw [bind_eq_ok] at h
        obtain ⟨e, he, h⟩ := h
        rw [bind_eq_ok] at h
        obtain ⟨r, hr, h⟩ := h
        cases h
        obtain ⟨e', _, h1, h2, _⟩ := scanGrid_some hm
        rw [Nat.sub_zero, entryAt_ok.mp he] at h1
        cases h1
        simp at h2
        exact H.pos' hs he (.inr h2.1) hr r.1
      · cases h; exact H.bad _ hs

theorem doList_inv (H : AInv0 cfg I) {fileK : List UInt8 → AState → Outcome AState}
    (hf : ∀ p s s', I s → fileK p s = ok s' → I s') :
    ∀ (as : List (List UInt8)) (last : Bool) (s : AState) (r : AState × List (List UInt8)), I s →
      doList cfg fileK as last s = ok r → I r.1
  | [], _, s, r, hs, h => by rw [doList] at h; cases h; exact hs
  | a :: as, last, s, r, hs, h => by
    rw [doList] at h
    split at h
    · rw [bind_eq_ok] at h; obtain ⟨r', h1, h⟩ := h; cases h; exact doList_inv H hf as _ s r' hs h1
    · split at h
      · rw [bind_eq_ok] at h; obtain ⟨r', h1, h⟩ := h; cases h; exact doList_inv H hf as _ s r' hs h1
      · split at h
        · rw [bind_eq_ok] at h; obtain ⟨s1, h1, h⟩ := h
          rw [bind_eq_ok] at h; obtain ⟨r', h2, h⟩ := h; cases h
          exact doList_inv H hf as _ s1 r' (doLong_inv H hf a s s1 hs h1) h2
        · split at h
          · rw [bind_eq_ok] at h; obtain ⟨s1, h1, h⟩ := h
            rw [bind_eq_ok] at h; obtain ⟨r', h2, h⟩ := h; cases h
            exact doList_inv H hf as _ s1 r' (doShort_inv H a s s1 hs h1) h2
          · rw [bind_eq_ok] at h; obtain ⟨s1, h1, h⟩ := h
            rw [bind_eq_ok] at h; obtain ⟨r', h2, h⟩ := h; cases h
            exact doList_inv H hf as _ s1 r' (doValue_inv H hf a s s1 hs h1) h2

theorem fileArgs_inv (H : AInv cfg I) : ∀ (n : Nat) (p : List UInt8) (s s' : AState), I s →
    fileArgs cfg n p s = ok s' → I s'
  | 0, _, _, _, _, h => by rw [fileArgs] at h; cases h
  | n + 1, p, s, s', hs, h => by
    rw [fileArgs] at h
    split at h
    · rw [bind_eq_ok] at h; obtain ⟨r, h1, h⟩ := h; cases h
      exact doList_inv H.toAInv0 (fileArgs_inv H n) _ _ _ r (H.stdin _ _ hs) h1
    · split at h
      · cases h; exact H.bad _ hs
      · split at h
        · cases h; exact H.bad _ hs
        · rw [bind_eq_ok] at h; obtain ⟨r, h1, h⟩ := h; cases h
          exact H.files _ _ _ (doList_inv H.toAInv0 (fileArgs_inv H n) _ _ _ r (H.files s _ _ hs) h1)

theorem preLoop_core {n : Nat} : ∀ {g g' : List AEntry} {i : Nat} {prev : Option AEntry} {b1 b2 : Bool},
    preLoop n g i prev b1 b2 = ok (some g') → coresOf g' = coresOf g ∧ ∀ e ∈ g', e.used = false
  | [], g', _, _, _, _, h => by rw [preLoop] at h; cases h; simp [coresOf]
  | e :: es, g', i, prev, b1, b2, h => by
    rw [preLoop] at h
    split at h
    · cases h
    split at h
    · cases h
    split at h
    · cases h
    split at h
    · cases h
    split at h
    · cases h
    split at h
    · cases h
    split at h
    · cases h
    rw [bind_eq_ok] at h
    obtain ⟨r, h1, h⟩ := h
    cases r with
    | none => cases h
    | some es' =>
      cases h
      obtain ⟨h2, h3⟩ := preLoop_core h1
      refine ⟨?_, ?_⟩
      · show coreOf _ :: coresOf es' = coreOf e :: coresOf es
        rw [h2]; rfl
      · intro x hx
        rcases List.mem_cons.mp hx with rfl | hx
        · rfl
        · exact h3 x hx

/-- The number of entries in front of `ARGV_LAST`. -/
def lastIdx (g : List AEntry) : Nat := g.findIdx (fun e => e.short = argvLast)

theorem lastIdx_core {g g' : List AEntry} (h : coresOf g' = coresOf g) : lastIdx g' = lastIdx g := by
  have key : ∀ g : List AEntry, lastIdx g = (coresOf g).findIdx (fun e => e.short = argvLast) := by
    intro g
    unfold lastIdx coresOf
    rw [List.findIdx_map]
    rfl
  rw [key, key, h]

theorem preprocess_core {g g' : List AEntry} (h : preprocess g = ok (some g')) :
    coresOf g' = coresOf g ∧ lastIdx g < g.length ∧ ∀ i < lastIdx g, ∀ e, g'[i]? = some e → e.used = false := by
  unfold preprocess at h
  dsimp only at h
  change (if lastIdx g = g.length then ub else preLoop (lastIdx g) (g.take (lastIdx g)) 0 none false false >>= fun r =>
    ok (r.map (· ++ g.drop (lastIdx g)))) = ok (some g') at h
  split at h
  · cases h
  · rename_i hl
    rw [bind_eq_ok] at h
    obtain ⟨r, h1, h⟩ := h
    have hle : lastIdx g ≤ g.length := List.findIdx_le_length
    cases r with
    | none => cases h
    | some es' =>
      cases h
      obtain ⟨h2, h3⟩ := preLoop_core h1
      have hlen : es'.length = lastIdx g := by
        have := congrArg List.length h2
        simp [coresOf] at this
        omega
      refine ⟨?_, by omega, ?_⟩
      · unfold coresOf at h2 ⊢
        rw [List.map_append, h2, ← List.map_append, List.take_append_drop]
      · intro i hi e he
        rw [List.getElem?_append_left (by omega)] at he
        exact h3 e (List.mem_of_getElem? he)

/-- The start of the processing. -/
def startState (g0 : List AEntry) (cap : Nat) (stdin : List UInt8) (fds : Nat) : AState := ⟨g0, [], cap, 0, true, stdin, fds, 0⟩

/-- What is left at the end, with or without an error: a state with the invariant. -/
theorem process_inv_any (H : AInv cfg I) {fuel : Nat} {g g0 : List AEntry} {argv : List (List UInt8)} {stdin : List UInt8}
    {fds : Nat} {r : AResult} (h : argvProcess cfg fuel g argv stdin fds = ok r) (hp : preprocess g = ok (some g0))
    (hI : ∀ cap, I (startState g0 cap stdin fds)) : ∃ s : AState, I s ∧ s.grid = r.grid := by
  unfold argvProcess at h
  split at h
  · cases h
  · rw [hp, ok_bind] at h
    dsimp only at h
    unfold processLists at h
    dsimp only at h
    rw [bind_eq_ok] at h; obtain ⟨r1, h1, h⟩ := h
    rw [bind_eq_ok] at h; obtain ⟨r2, h2, h⟩ := h
    rw [bind_eq_ok] at h; obtain ⟨r3, h3, h⟩ := h
    rw [bind_eq_ok] at h; obtain ⟨m, hm, h⟩ := h
    rw [bind_eq_ok] at h; obtain ⟨x, hx, h⟩ := h
    cases h
    have i1 := doList_inv H.toAInv0 (fileArgs_inv H fuel) _ _ _ r1 (hI _) h1
    have i2 := doList_inv H.toAInv0 (fileArgs_inv H fuel) _ _ _ r2 i1 h2
    exact ⟨r3.1, doList_inv H.toAInv0 (fileArgs_inv H fuel) _ _ _ r3 i2 h3, rfl⟩

/-- What is left at the end, if there is no error: a state with the invariant, in which all the checks hold. -/
theorem process_inv (H : AInv cfg I) {fuel : Nat} {g : List AEntry} {argv : List (List UInt8)} {stdin : List UInt8}
    {fds : Nat} {r : AResult} (h : argvProcess cfg fuel g argv stdin fds = ok r) (hn : r.noError = true)
    (hI : ∀ g0 cap, preprocess g = ok (some g0) → I (startState g0 cap stdin fds)) :
    ∃ s : AState, I s ∧ s.grid = r.grid ∧ s.okay = true ∧ checkMand s.grid = ok true ∧
      checkXor s.grid (s.grid.length + 1) 0 = ok true ∧ s.queue.length ≤ s.tail := by
  unfold argvProcess at h
  split at h
  · cases h
  · rw [bind_eq_ok] at h
    obtain ⟨pr, hp, h⟩ := h
    split at h
    · cases h; cases hn
    · rename_i argv0 args _ g0
      unfold processLists at h
      dsimp only at h
      rw [bind_eq_ok] at h; obtain ⟨r1, h1, h⟩ := h
      rw [bind_eq_ok] at h; obtain ⟨r2, h2, h⟩ := h
      rw [bind_eq_ok] at h; obtain ⟨r3, h3, h⟩ := h
      rw [bind_eq_ok] at h; obtain ⟨m, hm, h⟩ := h
      rw [bind_eq_ok] at h; obtain ⟨x, hx, h⟩ := h
      cases h
      have i1 := doList_inv H.toAInv0 (fileArgs_inv H fuel) _ _ _ r1 (hI g0 _ hp) h1
      have i2 := doList_inv H.toAInv0 (fileArgs_inv H fuel) _ _ _ r2 i1 h2
      have i3 := doList_inv H.toAInv0 (fileArgs_inv H fuel) _ _ _ r3 i2 h3
      simp only [Bool.and_eq_true] at hn
      obtain ⟨⟨⟨n1, rfl⟩, n2⟩, rfl⟩ := hn
      refine ⟨r3.1, i3, rfl, n1, hm, hx, ?_⟩
      simpa using n2

end Wdns
