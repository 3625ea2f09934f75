import Verif.Props.ArgvSafe

/-!
# Properties of command lines: termination, and what goes wrong — C108
-/

namespace Wdns
open Outcome

/-! ### Termination -/

/-- The files that can be opened stay, and standard input stays or is at its end. -/
def SameFiles (s s' : AState) : Prop := s'.fds = s.fds ∧ (s'.stdin = s.stdin ∨ s'.stdin = [])

theorem doArg_files {cfg : ACfg} {i : Nat} {close : Option (List UInt8)} {s s' : AState} (h : doArg cfg i close s = ok s') :
    s'.fds = s.fds ∧ s'.stdin = s.stdin := by
  unfold doArg at h
  rw [bind_eq_ok] at h
  obtain ⟨e, _, h⟩ := h
  dsimp only at h
  rw [bind_eq_ok] at h
  obtain ⟨clash, _, h⟩ := h
  split at h
  · rw [bind_eq_ok] at h
    obtain ⟨r, _, h⟩ := h
    cases h
    exact ⟨rfl, rfl⟩
  · split at h
    · cases h; exact ⟨rfl, rfl⟩
    · cases h

theorem sameFiles_inv (cfg : ACfg) (s0 : AState) : AInv0 cfg (SameFiles s0) where
  bad _ h := h
  arg i close s s' hs h := by
    obtain ⟨h1, h2⟩ := doArg_files h
    exact ⟨h1.trans hs.1, by rw [h2]; exact hs.2⟩
  value _ _ _ _ _ h _ _ := h
  pos _ _ _ _ _ h _ _ := h
  push _ h _ := h
  pop _ h _ := h

theorem SameFiles.trans {a b c : AState} (h1 : SameFiles a b) (h2 : SameFiles b c) : SameFiles a c := by
  refine ⟨h2.1.trans h1.1, ?_⟩
  rcases h2.2 with h | h
  · rw [h]; exact h1.2
  · exact .inr h

theorem fileArgs_files {cfg : ACfg} : ∀ (n : Nat) (p : List UInt8) (s s' : AState), fileArgs cfg n p s = ok s' → SameFiles s s'
  | 0, _, _, _, h => by rw [fileArgs] at h; cases h
  | n + 1, p, s, s', h => by
    have hf : ∀ s0 p s s', SameFiles s0 s → fileArgs cfg n p s = ok s' → SameFiles s0 s' :=
      fun s0 p s s' h1 h2 => h1.trans (fileArgs_files n p s s' h2)
    rw [fileArgs] at h
    split at h
    · rw [bind_eq_ok] at h; obtain ⟨r, h1, h⟩ := h; cases h
      have := doList_inv (sameFiles_inv cfg { s with stdin := [] }) (hf _) _ _ _ r ⟨rfl, .inl rfl⟩ h1
      refine ⟨this.1, .inr ?_⟩
      rcases this.2 with h | h <;> exact h
    · split at h
      · cases h; exact ⟨rfl, .inl rfl⟩
      · split at h
        · cases h; exact ⟨rfl, .inl rfl⟩
        · rename_i hfd
          rw [bind_eq_ok] at h; obtain ⟨r, h1, h⟩ := h; cases h
          have := doList_inv (sameFiles_inv cfg { s with fds := s.fds - 1, opens := s.opens + 1 }) (hf _) _ _ _ r ⟨rfl, .inl rfl⟩ h1
          have h2 : r.1.fds = s.fds - 1 := this.1
          exact ⟨by show r.1.fds + 1 = s.fds; omega, this.2⟩

theorem bind_no_hang {α β : Type} {x : Outcome α} {f : α → Outcome β} (hx : x ≠ hang) (hf : ∀ a, x = ok a → f a ≠ hang) :
    (x >>= f) ≠ hang := by
  cases x with
  | ok a => rw [ok_bind]; exact hf a rfl
  | err r => simp
  | ub => simp
  | hang => exact absurd rfl hx
  | abort => simp

theorem entryAt_no_hang (g : List AEntry) (i : Nat) : entryAt g i ≠ hang := by unfold entryAt; split <;> simp

theorem baseLoop_no_hang (b : Nat) : ∀ (s : List UInt8) (n : Nat), baseLoop b s n ≠ hang
  | [], n => by simp [baseLoop]
  | c :: cs, n => by
    rw [baseLoop]
    split
    · split
      · simp
      · exact baseLoop_no_hang b cs _
    · simp

theorem convert_no_hang (cfg : ACfg) (ty : Nat) (a : Option (List UInt8)) (old : AVal) : convert cfg ty a old ≠ hang := by
  have hb : ∀ b t, baseToInt b t ≠ hang := by
    intro b t
    unfold baseToInt
    exact bind_no_hang (baseLoop_no_hang _ _ _) (fun _ _ => by simp)
  unfold convert
  split
  all_goals first
    | simp; done
    | exact bind_no_hang (hb _ _) (fun _ _ => by simp)
    | (split <;> first | simp; done | (split <;> simp))
    | (dsimp only; split <;> simp)

theorem stringToValue_no_hang (cfg : ACfg) (a : Option (List UInt8)) (e : AEntry) : stringToValue cfg a e ≠ hang := by
  unfold stringToValue
  split
  · simp
  · split
    · exact bind_no_hang (convert_no_hang _ _ _ _) (fun _ _ => by simp)
    · exact bind_no_hang (convert_no_hang _ _ _ _) (fun _ _ => by simp)
    · simp

theorem scanGrid_no_hang (p : AEntry → Bool) : ∀ (g : List AEntry) (i : Nat), scanGrid p g i ≠ hang
  | [], i => by simp [scanGrid]
  | e :: es, i => by
    rw [scanGrid]
    split
    · simp
    · split
      · simp
      · exact scanGrid_no_hang p es _

theorem longLoop_no_hang (rest : List UInt8) : ∀ (g : List AEntry) (i : Nat) (m : Option Nat), longLoop rest g i m ≠ hang
  | [], i, m => by simp [longLoop]
  | e :: es, i, m => by
    rw [longLoop.eq_def]
    dsimp only
    split
    · simp
    · split
      · cases m with
        | some k => simp
        | none => exact longLoop_no_hang rest es _ _
      · exact longLoop_no_hang rest es _ _

theorem orBelow_no_hang (g : List AEntry) : ∀ j, orBelow g j ≠ hang
  | 0 => by simp [orBelow]
  | 1 => by simp [orBelow]
  | k + 2 => by
    rw [orBelow]
    refine bind_no_hang (entryAt_no_hang _ _) (fun sep _ => ?_)
    split
    · simp
    · refine bind_no_hang (entryAt_no_hang _ _) (fun e _ => ?_)
      split
      · simp
      · exact orBelow_no_hang g k

theorem entryAt_none {g : List AEntry} {i : Nat} (h : g.length ≤ i) : entryAt g i = ub := by
  unfold entryAt
  rw [List.getElem?_eq_none h]

theorem orAbove_no_hang (g : List AEntry) : ∀ (fuel j : Nat), g.length < fuel + j → orAbove g fuel j ≠ hang ∨ (fuel = 0 ∧ g.length < j)
  | 0, j, h => .inr ⟨rfl, by omega⟩
  | fuel + 1, j, h => by
    left
    rw [orAbove]
    by_cases hj : j < g.length
    · refine bind_no_hang (entryAt_no_hang _ _) (fun e _ => ?_)
      split
      · simp
      · refine bind_no_hang (entryAt_no_hang _ _) (fun sep _ => ?_)
        split
        · simp
        · split
          · simp
          · split
            · simp
            · rcases orAbove_no_hang g fuel (j + 2) (by omega) with h1 | ⟨h1, _⟩
              · exact h1
              · omega
    · rw [entryAt_none (by omega)]; simp

theorem checkOr_no_hang (g : List AEntry) (i : Nat) : checkOr g i ≠ hang := by
  unfold checkOr
  refine bind_no_hang (orBelow_no_hang g i) (fun b _ => ?_)
  split
  · simp
  · rcases orAbove_no_hang g (g.length + 1) (i + 2) (by omega) with h | ⟨h, _⟩
    · exact h
    · omega

theorem doArg_no_hang (cfg : ACfg) (i : Nat) (close : Option (List UInt8)) (s : AState) : doArg cfg i close s ≠ hang := by
  unfold doArg
  refine bind_no_hang (entryAt_no_hang _ _) (fun e _ => ?_)
  dsimp only
  refine bind_no_hang (checkOr_no_hang _ _) (fun b _ => ?_)
  split
  · exact bind_no_hang (stringToValue_no_hang _ _ _) (fun _ _ => by simp)
  · split <;> simp

theorem clusterLoop_no_hang (cfg : ACfg) (full : List UInt8) (close : Option (List UInt8)) :
    ∀ (cs : List UInt8) (first : Bool) (s : AState), clusterLoop cfg full close cs first s ≠ hang
  | [], _, s => by simp [clusterLoop]
  | c :: cs, first, s => by
    rw [clusterLoop]
    refine bind_no_hang (scanGrid_no_hang _ _ _) (fun m _ => ?_)
    split
    · exact bind_no_hang (doArg_no_hang _ _ _ _) (fun s1 _ => clusterLoop_no_hang cfg full close cs _ _)
    · split
      · exact clusterLoop_no_hang cfg full close cs _ _
      · split
        · split
          · refine bind_no_hang (entryAt_no_hang _ _) (fun e _ => ?_)
            split
            · exact bind_no_hang (stringToValue_no_hang _ _ _) (fun _ _ => by simp)
            · exact clusterLoop_no_hang cfg full close cs _ _
          · simp
        · exact clusterLoop_no_hang cfg full close cs _ _

/-- The files that can still be nested. -/
def nesting (s : AState) : Nat := s.fds + if s.stdin = [] then 0 else 1

theorem SameFiles.nesting {a b : AState} (h : SameFiles a b) : nesting b ≤ nesting a := by
  unfold Wdns.nesting
  rw [h.1]
  rcases h.2 with h2 | h2
  · rw [h2]; omega
  · rw [h2, if_pos rfl]; omega

theorem doList_no_hang (cfg : ACfg) (fileK : List UInt8 → AState → Outcome AState) (M : Nat)
    (hk : ∀ p s, nesting s ≤ M → fileK p s ≠ hang) (hf : ∀ p s s', fileK p s = ok s' → SameFiles s s') :
    ∀ (as : List (List UInt8)) (last : Bool) (s : AState), nesting s ≤ M → doList cfg fileK as last s ≠ hang
  | [], _, s, _ => by simp [doList]
  | a :: as, last, s, hM => by
    have ih := fun l s => doList_no_hang cfg fileK M hk hf as l s
    have hfs : ∀ s0 p s s', SameFiles s0 s → fileK p s = ok s' → SameFiles s0 s' :=
      fun s0 p s s' h1 h2 => h1.trans (hf p s s' h2)
    have hrefl : SameFiles s s := ⟨rfl, .inl rfl⟩
    rw [doList]
    split
    · exact bind_no_hang (ih _ _ hM) (fun _ _ => by simp)
    · split
      · exact bind_no_hang (ih _ _ hM) (fun _ _ => by simp)
      · split
        · refine bind_no_hang ?_ (fun s1 h1 => bind_no_hang (ih _ _ ?_) (fun _ _ => by simp))
          · unfold doLong
            dsimp only
            split
            · simp
            · refine bind_no_hang (longLoop_no_hang _ _ _ _) (fun r _ => ?_)
              split
              · simp
              · exact doArg_no_hang _ _ _ _
              · split
                · split
                  · exact hk _ _ hM
                  · split <;> simp
                · split <;> simp
          · exact Nat.le_trans (doLong_inv (sameFiles_inv cfg s) (hfs s) a s s1 hrefl h1).nesting hM
        · split
          · refine bind_no_hang ?_ (fun s1 h1 => bind_no_hang (ih _ _ ?_) (fun _ _ => by simp))
            · unfold doShort
              dsimp only
              split
              · simp
              · exact clusterLoop_no_hang _ _ _ _ _ _
            · exact Nat.le_trans (doShort_inv (sameFiles_inv cfg s) a s s1 hrefl h1).nesting hM
          · refine bind_no_hang ?_ (fun s1 h1 => bind_no_hang (ih _ _ ?_) (fun _ _ => by simp))
            · unfold doValue
              refine bind_no_hang (entryAt_no_hang _ _) (fun e0 _ => ?_)
              have wr : ∀ (i : Nat) (f : AEntry → Bool × AEntry → AState),
                  (entryAt s.grid i >>= fun e => stringToValue cfg (some a) e >>= fun r => ok (f e r)) ≠ hang := by
                intro i f
                exact bind_no_hang (entryAt_no_hang _ _) (fun e _ => bind_no_hang (stringToValue_no_hang _ _ _) (fun _ _ => by simp))
              split
              · split
                · exact hk _ _ hM
                · exact wr _ (fun _ r => { s with grid := s.grid.set _ r.2, tail := s.tail + 1, okay := s.okay && r.1 })
                · simp
              · refine bind_no_hang (scanGrid_no_hang _ _ _) (fun m _ => ?_)
                split
                · exact wr _ (fun _ r => { s with grid := s.grid.set _ { r.2 with used := true }, okay := s.okay && r.1 })
                · refine bind_no_hang (scanGrid_no_hang _ _ _) (fun m _ => ?_)
                  split
                  · exact wr _ (fun _ r => { s with grid := s.grid.set _ { r.2 with used := true }, okay := s.okay && r.1 })
                  · simp
            · exact Nat.le_trans (doValue_inv (sameFiles_inv cfg s) (hfs s) a s s1 hrefl h1).nesting hM

theorem fileArgs_no_hang (cfg : ACfg) : ∀ (n : Nat) (p : List UInt8) (s : AState), nesting s < n → fileArgs cfg n p s ≠ hang
  | 0, p, s, h => by omega
  | n + 1, p, s, h => by
    have ih := fileArgs_no_hang cfg n
    have hf := fileArgs_files (cfg := cfg) n
    rw [fileArgs]
    split
    · by_cases hs : s.stdin = []
      · rw [hs]
        simp [fileLines, doList]
      · refine bind_no_hang (doList_no_hang cfg _ (n - 1) (fun p s' hs' => ih p s' ?_) hf _ _ _ ?_) (fun _ _ => by simp)
        · unfold nesting at h
          rw [if_neg hs] at h
          omega
        · unfold nesting at h ⊢
          rw [if_neg hs] at h
          simp
          omega
    · split
      · simp
      · split
        · simp
        · rename_i hfd
          refine bind_no_hang (doList_no_hang cfg _ (n - 1) (fun p s' hs' => ih p s' ?_) hf _ _ _ ?_) (fun _ _ => by simp)
          · unfold nesting at h
            omega
          · unfold nesting at h ⊢
            dsimp only
            omega

theorem xorRun_no_hang (g : List AEntry) : ∀ (fuel k : Nat) (u : Bool), g.length < fuel + k + 1 → xorRun g (fuel + 1) k u ≠ hang
  | 0, k, u, h => by
    rw [xorRun, entryAt_none (by omega)]; simp
  | fuel + 1, k, u, h => by
    rw [xorRun]
    refine bind_no_hang (entryAt_no_hang _ _) (fun e _ => bind_no_hang (entryAt_no_hang _ _) (fun sep _ => ?_))
    split
    · exact xorRun_no_hang g fuel (k + 2) _ (by omega)
    · simp

theorem checkXor_no_hang (g : List AEntry) : ∀ (fuel k : Nat), g.length < fuel + k + 1 → checkXor g (fuel + 1) k ≠ hang
  | 0, k, h => by
    rw [checkXor, entryAt_none (by omega)]; simp
  | fuel + 1, k, h => by
    rw [checkXor]
    refine bind_no_hang (entryAt_no_hang _ _) (fun e _ => ?_)
    split
    · simp
    · split
      · exact checkXor_no_hang g fuel (k + 1) (by omega)
      · split
        · simp
        · refine bind_no_hang (entryAt_no_hang _ _) (fun e _ => bind_no_hang (xorRun_no_hang g _ _ _ (by omega)) (fun r hr => ?_))
          split
          · obtain ⟨d, hd, h1, _⟩ := xorRun_spec hr
            exact checkXor_no_hang g fuel (r.1 + 1) (by omega)
          · simp

theorem checkMand_no_hang : ∀ (g : List AEntry), checkMand g ≠ hang
  | [] => by simp [checkMand]
  | e :: es => by
    rw [checkMand]
    split
    · simp
    · exact bind_no_hang (checkMand_no_hang es) (fun _ _ => by simp)

theorem preLoop_no_hang (n : Nat) : ∀ (g : List AEntry) (i : Nat) (prev : Option AEntry) (b1 b2 : Bool),
    preLoop n g i prev b1 b2 ≠ hang
  | [], _, _, _, _ => by simp [preLoop]
  | e :: es, i, prev, b1, b2 => by
    rw [preLoop]
    repeat' split
    all_goals first
      | simp; done
      | exact bind_no_hang (preLoop_no_hang n es _ _ _ _) (fun _ _ => by simp)

/-- **C108.** Whatever the array, the arguments, the environment and the files: processing ends; the nesting of argument
files is bounded by the number of files that can be open at a time (and one more for standard input). -/
theorem C108_terminates (cfg : ACfg) (fuel : Nat) (g : List AEntry) (argv : List (List UInt8)) (stdin : List UInt8) (fds : Nat)
    (h : fds + 1 < fuel) : argvProcess cfg fuel g argv stdin fds ≠ hang := by
  unfold argvProcess
  split
  · simp
  · refine bind_no_hang ?_ (fun r _ => ?_)
    · unfold preprocess
      dsimp only
      split
      · simp
      · exact bind_no_hang (preLoop_no_hang _ _ _ _ _ _) (fun _ _ => by simp)
    · split
      · simp
      · rename_i argv0 args _ g0 _
        have list : ∀ as s, nesting s ≤ fds + 1 → doList cfg (fileArgs cfg fuel) as false s ≠ hang :=
          fun as s hs => doList_no_hang cfg _ (fds + 1) (fun p s hs => fileArgs_no_hang cfg fuel p s (by omega))
            (fileArgs_files fuel) as false s hs
        have keep : ∀ as s r, nesting s ≤ fds + 1 → doList cfg (fileArgs cfg fuel) as false s = ok r → nesting r.1 ≤ fds + 1 := by
          intro as s r hs hr
          refine Nat.le_trans (doList_inv (sameFiles_inv cfg s) ?_ as false s r ⟨rfl, .inl rfl⟩ hr).nesting hs
          intro p s1 s2 h1 h2
          exact h1.trans (fileArgs_files fuel p s1 s2 h2)
        unfold processLists
        dsimp only
        have h0 : nesting ⟨g0, [], args.length + 1 + (envArgs cfg argv0).length, 0, true, stdin, fds, 0⟩ ≤ fds + 1 := by
          unfold nesting
          dsimp only
          split <;> omega
        refine bind_no_hang (list _ _ h0) (fun r1 h1 => ?_)
        have n1 := keep _ _ _ h0 h1
        refine bind_no_hang (list _ _ n1) (fun r2 h2 => ?_)
        have n2 := keep _ _ _ n1 h2
        refine bind_no_hang (list _ _ n2) (fun r3 h3 => ?_)
        exact bind_no_hang (checkMand_no_hang _) (fun _ _ => bind_no_hang (checkXor_no_hang _ _ _ (by omega)) (fun _ _ => by simp))

/-! ### What goes wrong -/

theorem orBelow_unused {g : List AEntry} : ∀ (j : Nat), j ≤ g.length → (∀ i < j, ∀ e, g[i]? = some e → e.used = false) →
    orBelow g j = ok false
  | 0, _, _ => rfl
  | 1, _, _ => rfl
  | k + 2, h, hu => by
    rw [orBelow, entryAt_lt (by omega), ok_bind]
    split
    · rfl
    · rw [entryAt_lt (by omega), ok_bind]
      have := hu k (by omega) _ (List.getElem?_eq_getElem (by omega))
      rw [if_neg (by rw [this]; simp)]
      exact orBelow_unused k (by omega) (fun i hi => hu i (by omega))

theorem scanGrid_at {p : AEntry → Bool} {g : List AEntry} {k : Nat} (hl : lastIdx g < g.length) (hk : k < lastIdx g)
    (hp : ∀ e, g[k]? = some e → p e = true) (hn : ∀ j < k, ∀ e, g[j]? = some e → p e = false) :
    scanGrid p g 0 = ok (some k) := by
  have hgk : g[k]? = some g[k] := List.getElem?_eq_getElem (by omega)
  rcases scanGrid_total (p := p) 0 hl with ⟨k', e, h1, h2, h3, h4, h5⟩ | ⟨_, h2⟩
  · rw [h1, Nat.zero_add]
    have hle : ¬ k' < k := by
      intro hlt
      rw [hn k' hlt e h3] at h4
      cases h4
    have hge : ¬ k < k' := by
      intro hlt
      have := h5 k hlt _ hgk
      rw [hp _ hgk] at this
      cases this
    rw [show k' = k by omega]
  · have := h2 k hk _ hgk
    rw [hp _ hgk] at this
    cases this

theorem takeWhile_id {α : Type} {p : α → Bool} : ∀ {l : List α}, (∀ x ∈ l, p x = true) → l.takeWhile p = l
  | [], _ => rfl
  | x :: xs, h => by rw [List.takeWhile_cons_of_pos (h x (by simp)), takeWhile_id (fun y hy => h y (by simp [hy]))]

/-- The argument `-c`, at the start of a list. -/
theorem doList_short {cfg : ACfg} {fileK : List UInt8 → AState → Outcome AState} {c : UInt8} {cs : List UInt8} (hc : c ≠ 45)
    (heq : (61 : UInt8) ∉ c :: cs) (rest : List (List UInt8)) (s : AState) :
    doList cfg fileK ((45 :: c :: cs) :: rest) false s =
      clusterLoop cfg (45 :: c :: cs) none (c :: cs) true s >>= fun s =>
        doList cfg fileK rest false s >>= fun r => ok (r.1, (45 :: c :: cs) :: r.2) := by
  have e2 : ascii "--" = [45, 45] := by decide
  have e1 : ascii "-" = [45] := by decide
  have hp : punch cfg (45 :: c :: cs) = 45 :: c :: cs := by
    unfold punch
    split
    · apply takeWhile_id
      intro x hx
      rcases List.mem_cons.mp hx with rfl | hx
      · decide
      · simp only [decide_eq_true_eq, ne_eq]
        rintro rfl
        exact heq hx
    · rfl
  have hct : closeText cfg (45 :: c :: cs) = none := by
    unfold closeText
    rw [if_neg]
    rintro ⟨_, h⟩
    rcases List.mem_cons.mp h with h | h
    · cases h
    · exact heq h
  rw [doList, if_neg (by simp), if_neg (by rw [e2]; simp [hc]), if_neg (by rw [e2]; simp [hc]), if_pos (by rw [e1]; simp)]
  unfold doShort
  dsimp only
  rw [hp, hct]
  rfl

/-- The first list of arguments ends in an undefined access: so does the whole. -/
theorem process_ub {cfg : ACfg} {fuel : Nat} {g g0 : List AEntry} {argv0 : List UInt8} {args : List (List UInt8)}
    {stdin : List UInt8} {fds : Nat} (hp : preprocess g = ok (some g0)) (henv : envArgs cfg argv0 = [])
    (h : doList cfg (fileArgs cfg fuel) args false (startState g0 (args.length + 1) stdin fds) = ub) :
    argvProcess cfg fuel g (argv0 :: args) stdin fds = ub := by
  unfold argvProcess
  dsimp only
  rw [hp, ok_bind]
  dsimp only
  unfold processLists
  dsimp only
  rw [henv]
  simp only [ite_self, doList, ok_bind, List.length_nil, Nat.add_zero]
  unfold startState at h
  rw [h]
  rfl

theorem lastIdx_append {a b : List AEntry} (h : ∀ e ∈ a, e.short ≠ argvLast) : lastIdx (a ++ b) = a.length + lastIdx b := by
  induction a with
  | nil => simp
  | cons e es ih =>
    rw [List.cons_append, lastIdx_cons, if_neg (h e (by simp)), ih (fun x hx => h x (by simp [hx]))]
    simp
    omega

theorem get_core {g g' : List AEntry} (h : coresOf g = coresOf g') {i : Nat} {e : AEntry} (he : g[i]? = some e) :
    ∃ e', g'[i]? = some e' ∧ coreOf e = coreOf e' := by
  have hci := congrArg (fun l => l[i]?) h
  simp only [coresOf, List.getElem?_map, he, Option.map_some] at hci
  cases hri : g'[i]? with
  | none => rw [hri] at hci; cases hci
  | some e' =>
    rw [hri] at hci
    simp only [Option.map_some, Option.some.injEq] at hci
    exact ⟨e', rfl, hci⟩

/-- The option `c` is entry `k` of the array. -/
def Spec.OptionAt (g : List AEntry) (k : Nat) (c : UInt8) : Prop :=
  k < lastIdx g ∧ (∃ e, g[k]? = some e ∧ e.short = c) ∧ ∀ j < k, ∀ e, g[j]? = some e → e.short ≠ c

theorem Spec.OptionAt.scan {g g' : List AEntry} (h : coresOf g' = coresOf g) (hl : lastIdx g < g.length) {k : Nat} {c : UInt8}
    (ho : Spec.OptionAt g k c) : scanGrid (fun e => e.short = c) g' 0 = ok (some k) := by
  obtain ⟨h1, ⟨e, he, hs⟩, h3⟩ := ho
  have hl' : lastIdx g' < g'.length := by
    rw [lastIdx_core h]
    have := congrArg List.length h
    simp [coresOf] at this
    omega
  refine scanGrid_at hl' (by rw [lastIdx_core h]; exact h1) ?_ ?_
  · intro x hx
    obtain ⟨e', he', hc⟩ := get_core h hx
    rw [he] at he'
    cases he'
    have := congrArg AEntry.short hc
    have : x.short = e.short := this
    simp [this, hs]
  · intro j hj x hx
    obtain ⟨e', he', hc⟩ := get_core h hx
    have := congrArg AEntry.short hc
    have h4 : x.short = e'.short := this
    have := h3 j hj e' he'
    simp [h4, this]

/-- **C108 does not hold for the last option.** If the array ends with `ARGV_LAST` (as it is documented) then using its
last option reads the entry behind the end: for every array, every option and whatever follows on the command line. -/
theorem C108_last_violated (cfg : ACfg) (fuel : Nat) (g : List AEntry) (argv0 : List UInt8) (c : UInt8)
    (rest : List (List UInt8)) (stdin : List UInt8) (fds : Nat) (hp : ∃ g0, preprocess g = ok (some g0))
    (hend : g.length = lastIdx g + 1) (hc : c ≠ 45 ∧ c ≠ 61) (ho : Spec.OptionAt g (lastIdx g - 1) c)
    (henv : envArgs cfg argv0 = []) : argvProcess cfg fuel g (argv0 :: [45, c] :: rest) stdin fds = ub := by
  obtain ⟨g0, hp⟩ := hp
  obtain ⟨hcore, hl, hun⟩ := preprocess_core hp
  refine process_ub hp henv ?_
  rw [doList_short hc.1 (by simpa using fun h => hc.2 h.symm)]
  rw [clusterLoop]
  have hlen := congrArg List.length hcore
  simp [coresOf] at hlen
  have h0 : 0 < lastIdx g := by have := ho.1; omega
  have hscan := Spec.OptionAt.scan hcore hl ho
  unfold startState
  dsimp only
  rw [hscan, ok_bind]
  dsimp only
  have hd : doArg cfg (lastIdx g - 1) none ⟨g0, [], (([45, c] :: rest).length + 1), 0, true, stdin, fds, 0⟩ = ub := by
    unfold doArg
    have hlt : lastIdx g - 1 < g0.length := by omega
    show (entryAt g0 (lastIdx g - 1) >>= _) = ub
    rw [entryAt_lt hlt, ok_bind]
    dsimp only
    have : checkOr (g0.set (lastIdx g - 1) { g0[lastIdx g - 1] with used := true }) (lastIdx g - 1) = ub := by
      unfold checkOr
      rw [orBelow_unused _ (by simp; omega), ok_bind]
      · simp only [Bool.false_eq_true, if_false]
        rw [orAbove, entryAt_none (by simp; omega)]
        rfl
      · intro i hi e he
        rw [List.getElem?_set, if_neg (by omega)] at he
        exact hun i (by omega) e he
    rw [this]
    rfl
  rw [hd]
  rfl

theorem doArg_queue (cfg : ACfg) {s : AState} (hg : SpareEntry s.grid) {i : Nat} (hi : i < lastIdx s.grid) {e : AEntry}
    (he : s.grid[i]? = some e) (ha : hasArg e.ty = true) :
    (s.queue.length < s.cap → ∃ s', doArg cfg i none s = ok s' ∧ s'.queue = s.queue ++ [some i] ∧ s'.cap = s.cap ∧
      s'.tail = s.tail ∧ coresOf s'.grid = coresOf s.grid) ∧
    (¬ s.queue.length < s.cap → doArg cfg i none s = ub) := by
  unfold doArg
  rw [entryAt_ok.mpr he, ok_bind]
  dsimp only
  have hc : coresOf (s.grid.set i { e with used := true }) = coresOf s.grid := set_coresOf he rfl
  obtain ⟨b, hb⟩ := checkOr_total (SpareEntry.core hc hg) (by rw [lastIdx_core hc]; exact hi)
  rw [hb, ok_bind, if_neg (by simp [ha])]
  refine ⟨fun hq => ?_, fun hq => ?_⟩
  · rw [if_pos hq]; exact ⟨_, rfl, rfl, rfl, rfl, hc⟩
  · rw [if_neg hq]

theorem clusterLoop_overflow (cfg : ACfg) (g : List AEntry) (hg : SpareEntry g) {k : Nat} {c : UInt8} (ho : Spec.OptionAt g k c)
    (ha : ∀ e, g[k]? = some e → hasArg e.ty = true) (full t : List UInt8) : ∀ (n : Nat) (first : Bool) (s : AState),
    coresOf s.grid = coresOf g → s.queue.length ≤ s.cap → s.cap < s.queue.length + n →
    clusterLoop cfg full none (List.replicate n c ++ t) first s = ub
  | 0, _, s, _, h1, h2 => by omega
  | n + 1, first, s, hc, h1, h2 => by
    have hl : lastIdx g < g.length := by unfold SpareEntry at hg; omega
    rw [List.replicate_succ, List.cons_append, clusterLoop, Spec.OptionAt.scan hc hl ho, ok_bind]
    dsimp only
    obtain ⟨e, he, _⟩ := ho.2.1
    obtain ⟨e', he', hce⟩ := get_core hc.symm he
    have hty := congrArg AEntry.ty hce
    have hty : e.ty = e'.ty := hty
    obtain ⟨q1, q2⟩ := doArg_queue cfg (SpareEntry.core hc hg) (by rw [lastIdx_core hc]; exact ho.1) he'
      (by rw [← hty]; exact ha e he)
    by_cases hq : s.queue.length < s.cap
    · obtain ⟨s', h3, h4, h5, _, h6⟩ := q1 hq
      rw [h3, ok_bind]
      exact clusterLoop_overflow cfg g hg ho ha full t n false s' (h6.trans hc) (by rw [h4, h5]; simp; omega)
        (by rw [h4, h5]; simp; omega)
    · rw [q2 hq]; rfl

/-- **C108 does not hold for repeated options.** An option that takes a value, repeated in one argument (`-ooo`), writes
beyond the queue, which has room for as many entries as there are arguments: for every array. -/
theorem C108_cluster_violated (cfg : ACfg) (fuel : Nat) (g : List AEntry) (argv0 : List UInt8) (c : UInt8) (n k : Nat)
    (t : List UInt8) (rest : List (List UInt8)) (stdin : List UInt8) (fds : Nat) (hp : ∃ g0, preprocess g = ok (some g0))
    (hg : lastIdx g + 1 < g.length) (hc : c ≠ 45 ∧ c ≠ 61) (ho : Spec.OptionAt g k c)
    (ha : ∀ e, g[k]? = some e → hasArg e.ty = true) (henv : envArgs cfg argv0 = []) (hn : rest.length + 2 < n)
    (ht : (61 : UInt8) ∉ t) :
    argvProcess cfg fuel g (argv0 :: (45 :: (List.replicate n c ++ t)) :: rest) stdin fds = ub := by
  obtain ⟨g0, hp⟩ := hp
  obtain ⟨hcore, hl, _⟩ := preprocess_core hp
  refine process_ub hp henv ?_
  obtain ⟨m, rfl⟩ : ∃ m, n = m + 1 := ⟨n - 1, by omega⟩
  have e : List.replicate (m + 1) c ++ t = c :: (List.replicate m c ++ t) := by
    rw [List.replicate_succ, List.cons_append]
  have hne : (61 : UInt8) ∉ c :: (List.replicate m c ++ t) := by
    intro h
    rw [← e] at h
    rcases List.mem_append.mp h with h | h
    · exact hc.2 (List.eq_of_mem_replicate h).symm
    · exact ht h
  rw [e, doList_short hc.1 hne, ← e, clusterLoop_overflow cfg g hg ho ha _ t (m + 1) true _ hcore (by simp [startState]) (by
    simp [startState]; omega)]
  rfl

/-- **C108 does not hold without a program name.** With no arguments at all (`argv[0]` is NULL) the name is read through
NULL. -/
theorem C108_empty_violated (cfg : ACfg) (fuel : Nat) (g : List AEntry) (stdin : List UInt8) (fds : Nat) :
    argvProcess cfg fuel g [] stdin fds = ub := rfl

/-- Settings with one file `f`. -/
def fileCfg (text : List UInt8) : ACfg := { argvCfg with files := fun p => if p = ascii "f" then some text else none }

/-- **C108 does not hold for argument files.** The queue has no room for the options in a file; and the name of a file, like
any value, can look like a negative number: then NULL is read. -/
theorem C108_file_violated :
    argvProcess (fileCfg (ascii "-o\nx\n-o\ny\n-o\nz\n")) 9 argvGrid [ascii "prog", ascii "--argv-file=f"] [] 5 = ub ∧
    argvProcess argvCfg 9 argvGrid [ascii "prog", ascii "--argv-file", ascii "-5"] [] 5 = ub := by
  decide +kernel

/-- **C108 does not hold for an array entry without a variable**, although a NULL variable is meant to be an error. -/
theorem C108_null_violated :
    argvProcess argvCfg 9 [⟨120, none, 5, true, false, false, none⟩, argvEnd, argvEnd] [ascii "prog"] [] 5 = ub ∧
    (∃ r, argvProcess argvCfg 9 [⟨120, none, 5, false, false, false, none⟩, argvEnd, argvEnd] [ascii "prog"] [] 5 = ok r ∧
      r.noError = false) := by
  refine ⟨by decide +kernel, ⟨false, [⟨120, none, 5, false, false, false, none⟩, argvEnd, argvEnd], [ascii "prog"], 0⟩, ?_⟩
  decide +kernel

/-- **C108 does not hold for numbers.** Values out of range, and a counter at its end, are undefined. -/
theorem C108_range_violated :
    argvProcess argvCfg 9 [⟨120, none, 16, false, false, false, some (.one (.num 0))⟩, argvEnd, argvEnd]
      [ascii "prog", ascii "-x=80000000"] [] 5 = ub ∧
    argvProcess argvCfg 9 [⟨120, none, 18, false, false, false, some (.one (.num 0))⟩, argvEnd, argvEnd]
      [ascii "prog", ascii "-x=9999999999g"] [] 5 = ub ∧
    argvProcess argvCfg 9 argvGrid [ascii "prog", ascii "-v=2147483647", ascii "-v"] [] 5 = ub := by
  decide +kernel

theorem selfFile_lines : fileLines (ascii "--argv-file=f\n--argv-file=f\n").length (ascii "--argv-file=f\n--argv-file=f\n") =
    [ascii "--argv-file=f", ascii "--argv-file=f"] := by decide +kernel

/-- A file that names itself twice. -/
def selfCfg : ACfg := fileCfg (ascii "--argv-file=f\n--argv-file=f\n")

theorem doLong_self (fileK : List UInt8 → AState → Outcome AState) (s : AState) (hg : s.grid = argvGrid) :
    doLong selfCfg fileK (ascii "--argv-file=f") s = fileK (ascii "f") s := by
  unfold doLong
  dsimp only
  rw [if_neg (by decide +kernel), hg]
  have e : longLoop ((punch selfCfg (ascii "--argv-file=f")).drop 2) argvGrid 0 none = ok .no := by decide +kernel
  rw [e, ok_bind]
  dsimp only
  have e2 : closeText selfCfg (ascii "--argv-file=f") = some (ascii "f") := by decide +kernel
  rw [if_pos (by decide +kernel), e2]

theorem self_opens : ∀ (n fuel : Nat) (s : AState), s.grid = argvGrid → s.fds = n → n < fuel →
    ∃ b, fileArgs selfCfg fuel (ascii "f") s = ok { s with okay := b, opens := s.opens + (2 ^ n - 1) } ∧ b = false
  | 0, fuel + 1, s, hg, hn, hf => by
    rw [fileArgs, if_neg (by decide)]
    have : selfCfg.files (ascii "f") = some (ascii "--argv-file=f\n--argv-file=f\n") := by decide +kernel
    rw [this]
    dsimp only
    rw [if_pos hn]
    exact ⟨false, by simp, rfl⟩
  | n + 1, fuel + 1, s, hg, hn, hf => by
    rw [fileArgs, if_neg (by decide)]
    have : selfCfg.files (ascii "f") = some (ascii "--argv-file=f\n--argv-file=f\n") := by decide +kernel
    rw [this]
    dsimp only
    rw [if_neg (by omega), selfFile_lines]
    have step : ∀ (as : List (List UInt8)) (s : AState), s.grid = argvGrid →
        doList selfCfg (fileArgs selfCfg fuel) (ascii "--argv-file=f" :: as) false s =
          fileArgs selfCfg fuel (ascii "f") s >>= fun s => doList selfCfg (fileArgs selfCfg fuel) as false s >>= fun r =>
            ok (r.1, punch selfCfg (ascii "--argv-file=f") :: r.2) := by
      intro as s hg
      rw [doList, if_neg (by simp), if_neg (by decide +kernel), if_pos (by decide +kernel), doLong_self _ s hg]
    obtain ⟨b1, h1, _⟩ := self_opens n fuel { s with fds := s.fds - 1, opens := s.opens + 1 } hg (by dsimp only; omega) (by omega)
    rw [step [ascii "--argv-file=f"] { s with fds := s.fds - 1, opens := s.opens + 1 } hg, h1, ok_bind]
    dsimp only
    obtain ⟨b2, h2, hb2⟩ := self_opens n fuel { s with fds := s.fds - 1, okay := b1, opens := s.opens + 1 + (2 ^ n - 1) } hg
      (by dsimp only; omega) (by omega)
    rw [step [] { s with fds := s.fds - 1, okay := b1, opens := s.opens + 1 + (2 ^ n - 1) } hg, h2, ok_bind]
    dsimp only
    rw [doList, ok_bind, ok_bind, ok_bind]
    refine ⟨b2, ?_, hb2⟩
    have hp : 1 ≤ 2 ^ n := Nat.one_le_two_pow
    have e1 : s.fds - 1 + 1 = s.fds := by omega
    have e2 : s.opens + 1 + (2 ^ n - 1) + (2 ^ n - 1) = s.opens + (2 ^ (n + 1) - 1) := by
      rw [Nat.pow_succ]; omega
    dsimp only
    rw [e1, e2]

/-- **Argument files have no limit but the number of open files.** A file that names itself twice is opened `2^n - 1` times if
`n` files can be open; then the error is reported. -/
theorem C108_files_violated (n fuel : Nat) (hf : n < fuel) :
    ∃ r, argvProcess selfCfg fuel argvGrid [ascii "prog", ascii "--argv-file=f"] [] n = ok r ∧ r.noError = false ∧
      r.opens = 2 ^ n - 1 := by
  unfold argvProcess
  dsimp only
  have hp : preprocess argvGrid = ok (some argvGrid) := by decide +kernel
  have he : envArgs selfCfg (ascii "prog") = [] := by decide +kernel
  rw [hp, ok_bind, he]
  dsimp only
  unfold processLists
  dsimp only
  have e : ∀ b : Bool, (if b then ([] : List (List UInt8)) else []) = [] := by intro b; cases b <;> rfl
  have e0 : ∀ fk s, doList selfCfg fk [] false s = ok (s, []) := by intro fk s; rw [doList]
  rw [e, e]
  simp only [e0, ok_bind]
  rw [doList, if_neg (by simp), if_neg (by decide +kernel), if_pos (by decide +kernel), doLong_self _ _ rfl]
  obtain ⟨b, h1, hb⟩ := self_opens n fuel ⟨argvGrid, [], [ascii "--argv-file=f"].length + 1 + ([] : List (List UInt8)).length, 0, true,
    [], n, 0⟩ rfl rfl hf
  rw [h1]
  simp only [e0, ok_bind]
  have hm : checkMand argvGrid = ok false := by decide +kernel
  have hx : checkXor argvGrid (argvGrid.length + 1) 0 = ok false := by decide +kernel
  rw [hm, ok_bind, hx, ok_bind]
  exact ⟨_, rfl, by simp, by simp⟩

/-- With twenty files, that is more than a million. -/
example : ∃ r, argvProcess selfCfg 21 argvGrid [ascii "prog", ascii "--argv-file=f"] [] 20 = ok r ∧ r.opens = 1048575 := by
  obtain ⟨r, h, _, h2⟩ := C108_files_violated 20 21 (by omega)
  exact ⟨r, h, h2⟩

end Wdns
