import Verif.Props.ArgvLimits

/-!
# Properties of command lines: what they mean — C110
-/

namespace Wdns
open Outcome

/-! ### Specification -/

/-- One thing that a command line says. -/
inductive Spec.Item where
  /-- an option without a value -/
  | flag (i : Nat)
  /-- an option with a value -/
  | option (i : Nat) (t : List UInt8)
  /-- an argument by position -/
  | plain (t : List UInt8)

/-- The word calls the option of entry `i`: it is `-c` with the character of the entry, the first one to have it, or `--`
with its long name or an abbreviation that no other entry has. -/
inductive Spec.Names (g : List AEntry) (i : Nat) : List UInt8 → Prop
  | short (c : UInt8) (h : Spec.OptionAt g i c) (hc : c ≠ 45 ∧ c ≠ 61 ∧ c.toNat < 251) : Spec.Names g i [45, c]
  | long (e : AEntry) (he : g[i]? = some e) (hi : i < lastIdx g) (hs : e.short.toNat < 251) (l w : List UInt8)
      (hl : e.long = some l) (hw : w ≠ []) (heq : (61 : UInt8) ∉ w) (hp : w <+: l)
      (hu : ∀ j < lastIdx g, j ≠ i → ∀ e' l', g[j]? = some e' → e'.long = some l' → ¬ w <+: l') : Spec.Names g i (45 :: 45 :: w)

/-- A word that is no option: it does not begin with `-`, or it is `-`. -/
def Spec.NotOption (t : List UInt8) : Prop := t.take 1 ≠ ascii "-" ∨ t = ascii "-"

/-- The words in which something can be said. -/
inductive Spec.Says (g : List AEntry) : Spec.Item → List (List UInt8) → Prop
  | flag (i : Nat) (w : List UInt8) (h : Spec.Names g i w) (ha : ∀ e, g[i]? = some e → hasArg e.ty = false) :
      Spec.Says g (.flag i) [w]
  | next (i : Nat) (w t : List UInt8) (h : Spec.Names g i w) (ha : ∀ e, g[i]? = some e → hasArg e.ty = true)
      (ht : Spec.NotOption t) : Spec.Says g (.option i t) [w, t]
  | number (i : Nat) (w : List UInt8) (c : UInt8) (cs : List UInt8) (h : Spec.Names g i w)
      (ha : ∀ e, g[i]? = some e → e.ty ∈ [6, 8, 10, 12, 13]) (hc : c ≠ 45) (hn : ∀ x ∈ c :: cs, x ∈ ascii "0123456789+-.")
      (ho : ∀ j < lastIdx g, ∀ e, g[j]? = some e → e.short ≠ c) : Spec.Says g (.option i (45 :: c :: cs)) [w, 45 :: c :: cs]
  | close (i : Nat) (w t : List UInt8) (h : Spec.Names g i w) : Spec.Says g (.option i t) [w ++ 61 :: t]
  | plain (t : List UInt8) (ht : Spec.NotOption t) : Spec.Says g (.plain t) [t]

/-- The words of a whole command line, before `--`. -/
inductive Spec.Line (g : List AEntry) : List Spec.Item → List (List UInt8) → Prop
  | nil : Spec.Line g [] []
  | cons {a : Spec.Item} {as : List Spec.Item} {w ws : List (List UInt8)} (h : Spec.Says g a w) (hs : Spec.Line g as ws) :
      Spec.Line g (a :: as) (w ++ ws)

/-- The second list of words is the first one with some options of one character written together: `-abn 5` for `-a -b -n 5`. -/
inductive Spec.Together (g : List AEntry) : List (List UInt8) → List (List UInt8) → Prop
  | nil : Spec.Together g [] []
  | apart {ws ws' : List (List UInt8)} (w : List UInt8) (hw : w ≠ ascii "--") (h : Spec.Together g ws ws') :
      Spec.Together g (w :: ws) (w :: ws')
  | cluster {ws ws' : List (List UInt8)} (cs : List UInt8) (hne : cs ≠ [])
      (hcs : ∀ c ∈ cs, (∃ i, Spec.OptionAt g i c) ∧ c ≠ 45 ∧ c ≠ 61) (h : Spec.Together g ws ws') :
      Spec.Together g (cs.map (fun c => [45, c]) ++ ws) ((45 :: cs) :: ws')

/-- The command line says the items, before `--`. -/
def Spec.Written (g : List AEntry) (as : List Spec.Item) (ws : List (List UInt8)) : Prop :=
  ∃ ws0, Spec.Line g as ws0 ∧ Spec.Together g ws0 ws

/-- The entries for arguments by position: the mandatory ones, then the optional ones. -/
def Spec.positions (g : List AEntry) : List Nat :=
  ((List.range (lastIdx g)).filter fun i => (g[i]?.map AEntry.short) == some 254) ++
  ((List.range (lastIdx g)).filter fun i => (g[i]?.map AEntry.short) == some 253)

/-- Where the next argument by position goes: to the first entry that has not been given, or takes many. -/
def Spec.receiver (g : List AEntry) (given : List Nat) : Option Nat :=
  (Spec.positions g).find? fun i => !given.contains i || (g[i]?.map AEntry.array) == some true

/-- Which entries get which texts (`none`: given without a text), in order. -/
def Spec.gifts (g : List AEntry) : List Spec.Item → List Nat → List (Nat × Option (List UInt8))
  | [], _ => []
  | .flag i :: is, given => (i, none) :: Spec.gifts g is (given ++ [i])
  | .option i t :: is, given => (i, some t) :: Spec.gifts g is (given ++ [i])
  | .plain t :: is, given => match Spec.receiver g given with
    | some i => (i, some t) :: Spec.gifts g is (given ++ [i])
    | none => Spec.gifts g is given

/-- The texts that entry `i` gets. -/
def Spec.textsOf (i : Nat) (gs : List (Nat × Option (List UInt8))) : List (Option (List UInt8)) :=
  (gs.filter fun p => p.1 == i).map Prod.snd

/-- What the variable of an entry holds after texts: each one is converted and takes the place of the value before it, or is
added to the array. -/
inductive Spec.After (cfg : ACfg) (e : AEntry) : List (Option (List UInt8)) → Option AVar → Prop
  | none : Spec.After cfg e [] (if e.array then some (.many []) else e.var)
  | one (ts : List (Option (List UInt8))) (t : Option (List UInt8)) (old v : AVal) (ha : e.array = false)
      (h : Spec.After cfg e ts (some (.one old))) (hv : convert cfg e.ty t old = ok v) : Spec.After cfg e (ts ++ [t]) (some (.one v))
  | many (ts : List (Option (List UInt8))) (t : Option (List UInt8)) (vs : List AVal) (v : AVal) (ha : e.array = true)
      (h : Spec.After cfg e ts (some (.many vs))) (hv : convert cfg e.ty t .junk = ok v) :
      Spec.After cfg e (ts ++ [t]) (some (.many (vs ++ [v])))

/-- Every entry but the separators has one of the types that there are. -/
def Spec.Typed (g : List AEntry) : Prop :=
  ∀ i < lastIdx g, ∀ e, g[i]? = some e → e.short ≠ 252 → e.short ≠ 251 → 1 ≤ e.ty ∧ e.ty ≤ 22

/-! ### Proof -/

/-- What has been told so far is what the array holds, and no option waits for its value. -/
structure Told (cfg : ACfg) (g : List AEntry) (gs : List (Nat × Option (List UInt8))) (s : AState) : Prop where
  core : coresOf s.grid = coresOf g
  free : s.queue.length = s.tail
  «at» : ∀ i < lastIdx g, ∀ e, g[i]? = some e → ∃ e', s.grid[i]? = some e' ∧ e'.used = (gs.map Prod.fst).contains i ∧
    Spec.After cfg e (Spec.textsOf i gs) e'.var

theorem stringToValue_inv {cfg : ACfg} {t : Option (List UInt8)} {e : AEntry} {r : Bool × AEntry}
    (h : stringToValue cfg t e = ok r) (hty : 1 ≤ e.ty ∧ e.ty ≤ 22) :
    (e.array = true ∧ ∃ vs v, e.var = some (.many vs) ∧ convert cfg e.ty t .junk = ok v ∧
      r.2 = { e with var := some (.many (vs ++ [v])) }) ∨
    (e.array = false ∧ ∃ old v, e.var = some (.one old) ∧ convert cfg e.ty t old = ok v ∧
      r.2 = { e with var := some (.one v) }) := by
  unfold stringToValue at h
  rw [if_neg (by omega)] at h
  split at h
  · rename_i vs ha hv
    rw [bind_eq_ok] at h
    obtain ⟨v, h1, h⟩ := h
    cases h
    exact .inl ⟨ha, vs, v, hv, h1, rfl⟩
  · rename_i old ha hv
    rw [bind_eq_ok] at h
    obtain ⟨v, h1, h⟩ := h
    cases h
    exact .inr ⟨ha, old, v, hv, h1, rfl⟩
  · cases h

theorem textsOf_snoc (i j : Nat) (t : Option (List UInt8)) (gs : List (Nat × Option (List UInt8))) :
    Spec.textsOf i (gs ++ [(j, t)]) = Spec.textsOf i gs ++ if j = i then [t] else [] := by
  unfold Spec.textsOf
  by_cases h : j = i
  · simp [List.filter_append, h]
  · simp [List.filter_append, h]

theorem fst_snoc (i j : Nat) (t : Option (List UInt8)) (gs : List (Nat × Option (List UInt8))) :
    ((gs ++ [(j, t)]).map Prod.fst).contains i = ((gs.map Prod.fst).contains i || decide (j = i)) := by
  rw [List.map_append, List.contains_append]
  by_cases h : j = i
  · subst h; simp
  · have h' : ¬ i = j := fun h' => h h'.symm
    simp [h, h']

/-- One text given. -/
theorem Told.give {cfg : ACfg} {g : List AEntry} {gs : List (Nat × Option (List UInt8))} {s s' : AState} (H : Told cfg g gs s)
    {i : Nat} (hi : i < lastIdx g) {x : AEntry} (hx : s.grid[i]? = some x) (hty : 1 ≤ x.ty ∧ x.ty ≤ 22)
    {t : Option (List UInt8)} {b b' : Bool} {r : Bool × AEntry} (hr : stringToValue cfg t { x with used := b } = ok r)
    (hg : s'.grid = s.grid.set i { r.2 with used := true }) (hq : s'.queue.length = s'.tail) :
    Told cfg g (gs ++ [(i, t)]) s' := by
  have hv := stringToValue_inv hr hty
  have hcore : coreOf { r.2 with used := true } = coreOf x := by
    rcases hv with ⟨_, vs, v, _, _, h⟩ | ⟨_, o, v, _, _, h⟩ <;> rw [h] <;> rfl
  refine ⟨by rw [hg, set_coresOf hx hcore, H.core], hq, ?_⟩
  intro j hj e he
  obtain ⟨e', he', hu, ha⟩ := H.at j hj e he
  rw [fst_snoc, textsOf_snoc]
  by_cases hij : i = j
  · subst hij
    rw [hx] at he'
    cases Option.some.inj he'
    have hlt : i < s.grid.length := by
      rcases Nat.lt_or_ge i s.grid.length with h | h
      · exact h
      · rw [List.getElem?_eq_none h] at hx; cases hx
    refine ⟨{ r.2 with used := true }, ?_, by simp, ?_⟩
    · rw [hg, List.getElem?_set_self hlt]
    · have hc : coreOf x = coreOf e := get_core H.core hx |> fun ⟨y, hy, hc⟩ => by
        rw [he] at hy; cases hy; exact hc
      have h1 := congrArg AEntry.array hc
      have h1 : x.array = e.array := h1
      have h2 := congrArg AEntry.ty hc
      have h2 : x.ty = e.ty := h2
      rw [if_pos rfl]
      rcases hv with ⟨hA, vs, v, hvar, hcv, h⟩ | ⟨hA, o, v, hvar, hcv, h⟩
      · have hvar : x.var = some (.many vs) := hvar
        rw [h]
        rw [hvar] at ha
        exact Spec.After.many _ t vs v (h1 ▸ hA) ha (h2 ▸ hcv)
      · have hvar : x.var = some (.one o) := hvar
        rw [h]
        rw [hvar] at ha
        exact Spec.After.one _ t o v (h1 ▸ hA) ha (h2 ▸ hcv)
  · refine ⟨e', ?_, by simp [hu, hij], ?_⟩
    · rw [hg, List.getElem?_set_ne hij]; exact he'
    · rw [if_neg hij, List.append_nil]; exact ha

/-! #### The words -/

theorem punch_close {cfg : ACfg} (hc : cfg.closeEnable = true) {w : List UInt8} (hw : (61 : UInt8) ∉ w) (t : List UInt8) :
    punch cfg (w ++ 61 :: t) = w ∧ closeText cfg (w ++ 61 :: t) = some t := by
  have h1 : ∀ x ∈ w, (decide (x ≠ 61)) = true := by
    intro x hx
    simp only [decide_eq_true_eq]
    rintro rfl
    exact hw hx
  unfold punch closeText
  rw [if_pos hc, if_pos ⟨hc, by simp⟩, List.takeWhile_append_of_pos h1, List.dropWhile_append_of_pos h1]
  simp

theorem punch_none (cfg : ACfg) {w : List UInt8} (hw : (61 : UInt8) ∉ w) : punch cfg w = w ∧ closeText cfg w = none := by
  unfold punch closeText
  refine ⟨?_, if_neg (fun h => hw h.2)⟩
  split
  · apply takeWhile_id
    intro x hx
    simp only [decide_eq_true_eq, ne_eq]
    rintro rfl
    exact hw hx
  · rfl

theorem longLoop_none {rest : List UInt8} : ∀ {g : List AEntry} (k : Nat) (m : Option Nat), lastIdx g < g.length →
    (∀ j < lastIdx g, ∀ e, g[j]? = some e → longMatches rest e = false) →
    longLoop rest g k m = ok (match m with | some k => .found k | none => .no)
  | [], _, _, h, _ => by simp at h
  | e :: es, k, m, h, hn => by
    rw [longLoop.eq_def]
    dsimp only
    rw [lastIdx_cons] at h hn
    by_cases he : e.short = argvLast
    · rw [if_pos he]
      cases m <;> rfl
    · rw [if_neg he]
      rw [if_neg he] at h hn
      rw [if_neg (by rw [hn 0 (by omega) e rfl]; simp)]
      refine longLoop_none (k + 1) m (by simpa using h) ?_
      intro j hj x hx
      exact hn (j + 1) (by omega) x (by simpa using hx)

theorem longLoop_found {rest : List UInt8} : ∀ {g : List AEntry} (k i : Nat), lastIdx g < g.length → i < lastIdx g →
    (∀ j < lastIdx g, ∀ e, g[j]? = some e → longMatches rest e = decide (j = i)) →
    longLoop rest g k none = ok (.found (k + i))
  | [], _, _, h, _, _ => by simp at h
  | e :: es, k, i, h, hi, hn => by
    rw [longLoop]
    rw [lastIdx_cons] at h hn hi
    by_cases he : e.short = argvLast
    · rw [if_pos he] at hi; omega
    · rw [if_neg he]
      rw [if_neg he] at h hn hi
      cases i with
      | zero =>
        rw [if_pos (by rw [hn 0 (by omega) e rfl]; simp)]
        rw [longLoop_none (k + 1) (some k) (by simpa using h)]
        · simp
        · intro j hj x hx
          rw [hn (j + 1) (by omega) x (by simpa using hx)]
          simp
      | succ i =>
        rw [if_neg (by rw [hn 0 (by omega) e rfl]; simp)]
        rw [longLoop_found (k + 1) i (by simpa using h) (by omega)]
        · congr 2; omega
        · intro j hj x hx
          rw [hn (j + 1) (by omega) x (by simpa using hx)]
          simp

theorem scanGrid_absent {p : AEntry → Bool} : ∀ {g : List AEntry} (k : Nat), lastIdx g < g.length →
    (∀ j < lastIdx g, ∀ e, g[j]? = some e → p e = false) → scanGrid p g k = ok none
  | [], _, h, _ => by simp at h
  | e :: es, k, h, hn => by
    rw [scanGrid]
    rw [lastIdx_cons] at h hn
    by_cases he : e.short = argvLast
    · rw [if_pos he]
    · rw [if_neg he]
      rw [if_neg he] at h hn
      rw [if_neg (by rw [hn 0 (by omega) e rfl]; simp)]
      exact scanGrid_absent (k + 1) (by simpa using h) fun j hj x hx => hn (j + 1) (by omega) x (by simpa using hx)

theorem Spec.Names.lt {g : List AEntry} {i : Nat} {w : List UInt8} (h : Spec.Names g i w) : i < lastIdx g := by
  cases h with
  | short c h hc => exact h.1
  | long e he hi => exact hi

theorem Spec.Names.noEq {g : List AEntry} {i : Nat} {w : List UInt8} (h : Spec.Names g i w) : (61 : UInt8) ∉ w := by
  cases h with
  | short c h hc =>
    intro hm
    simp at hm
    exact hc.2.1 hm.symm
  | long e he hi hs l w hl hw heq hp hu =>
    intro hm
    simp at hm
    exact heq hm

/-- A word that calls an option, alone or with a text behind `=`. -/
theorem doList_names {cfg : ACfg} {fileK : List UInt8 → AState → Outcome AState} {g : List AEntry} {i : Nat} {w W : List UInt8}
    (h : Spec.Names g i w) (close : Option (List UInt8)) (hW : punch cfg W = w ∧ closeText cfg W = close)
    (hpre : w <+: W) {rest : List (List UInt8)} {s : AState} (hl : lastIdx g < g.length) (hc : coresOf s.grid = coresOf g) :
    doList cfg fileK (W :: rest) false s = doArg cfg i close s >>= fun s =>
      doList cfg fileK rest false s >>= fun r => ok (r.1, punch cfg W :: r.2) := by
  have e2 : ascii "--" = [45, 45] := by decide
  have e1 : ascii "-" = [45] := by decide
  obtain ⟨x, rfl⟩ := hpre
  cases h with
  | short c h hc' =>
    have hne : c ≠ 45 := hc'.1
    rw [doList, if_neg (by simp), if_neg (by rw [e2]; simp [hne]), if_neg (by rw [e2]; simp [hne]),
      if_pos (by rw [e1]; simp)]
    unfold doShort
    dsimp only
    rw [hW.1, hW.2]
    rw [if_neg (by simp)]
    show (clusterLoop cfg [45, c] close [c] true s >>= _) = _
    rw [clusterLoop, h.scan hc hl, ok_bind]
    dsimp only
    cases doArg cfg i close s <;> rfl
  | long e he hi hs l w hl' hw heq hp hu =>
    rw [doList, if_neg (by simp), if_neg (by rw [e2]; simp [hw]), if_pos (by rw [e2]; simp)]
    unfold doLong
    dsimp only
    rw [hW.1, hW.2]
    rw [if_neg (by simpa using hw)]
    have hlen := congrArg List.length hc
    simp [coresOf] at hlen
    have hf : longLoop w s.grid 0 none = ok (.found (0 + i)) := by
      refine longLoop_found 0 i (by rw [lastIdx_core hc]; omega) (by rw [lastIdx_core hc]; exact hi) ?_
      intro j hj x hx
      rw [lastIdx_core hc] at hj
      obtain ⟨y, hy, hcy⟩ := get_core hc hx
      have := congrArg AEntry.long hcy
      have hxy : x.long = y.long := this
      unfold longMatches
      rw [hxy]
      by_cases hji : j = i
      · subst hji
        rw [he] at hy
        cases hy
        rw [hl']
        simpa using hp
      · cases hyl : y.long with
        | none => simp [hji]
        | some l' =>
          have := hu j hj hji y l' hy hyl
          rw [decide_eq_false hji, ← Bool.not_eq_true]
          simpa using this
    show (longLoop w s.grid 0 none >>= _) >>= _ = _
    rw [hf, ok_bind]
    dsimp only
    rw [Nat.zero_add]

/-! #### The steps -/

theorem Spec.Names.typed {g : List AEntry} {i : Nat} {w : List UInt8} (h : Spec.Names g i w) (hg : Spec.Typed g) :
    ∃ e, g[i]? = some e ∧ 1 ≤ e.ty ∧ e.ty ≤ 22 := by
  have key : ∀ e : AEntry, g[i]? = some e → e.short.toNat < 251 → 1 ≤ e.ty ∧ e.ty ≤ 22 := by
    intro e he hs
    refine hg i h.lt e he ?_ ?_ <;> (intro h; rw [h] at hs; revert hs; decide)
  cases h with
  | short c h hc =>
    obtain ⟨_, ⟨e, he, hs⟩, _⟩ := h
    exact ⟨e, he, key e he (by rw [hs]; exact hc.2.2)⟩
  | long e he hi hs => exact ⟨e, he, key e he hs⟩

theorem stringToValue_used {cfg : ACfg} {t : Option (List UInt8)} {x : AEntry} {r : Bool × AEntry}
    (h : stringToValue cfg t { x with used := true } = ok r) : { r.2 with used := true } = r.2 := by
  obtain ⟨v, hv⟩ := stringToValue_core h
  rw [hv]

theorem Told.entry {cfg : ACfg} {g : List AEntry} {gs : List (Nat × Option (List UInt8))} {s : AState} (H : Told cfg g gs s)
    {i : Nat} (hi : i < lastIdx g) {e : AEntry} (he : g[i]? = some e) : ∃ x, s.grid[i]? = some x ∧ x.ty = e.ty := by
  obtain ⟨x, hx, _⟩ := H.at i hi e he
  obtain ⟨y, hy, hc⟩ := get_core H.core hx
  rw [he] at hy
  cases hy
  exact ⟨x, hx, by have := congrArg AEntry.ty hc; exact this⟩

/-- An option with its text, or without one. -/
theorem Told.arg {cfg : ACfg} {g : List AEntry} {gs : List (Nat × Option (List UInt8))} {s s' : AState} (H : Told cfg g gs s)
    {i : Nat} (hi : i < lastIdx g) {e : AEntry} (he : g[i]? = some e) (hty : 1 ≤ e.ty ∧ e.ty ≤ 22)
    {close : Option (List UInt8)} (hc : close.isSome ∨ hasArg e.ty = false) (h : doArg cfg i close s = ok s') :
    Told cfg g (gs ++ [(i, close)]) s' := by
  obtain ⟨x, hx, hxt⟩ := H.entry hi he
  unfold doArg at h
  rw [entryAt_ok.mpr hx, ok_bind] at h
  dsimp only at h
  rw [bind_eq_ok] at h
  obtain ⟨clash, _, h⟩ := h
  rw [if_pos (by rw [hxt]; rcases hc with h | h <;> simp [h]), bind_eq_ok] at h
  obtain ⟨r, hr, h⟩ := h
  cases h
  refine H.give hi hx (hxt ▸ hty) (b' := true) hr ?_ H.free
  dsimp only
  rw [List.set_set, stringToValue_used hr]

/-- An option whose text is the next word. -/
theorem Told.next {cfg : ACfg} {g : List AEntry} {gs : List (Nat × Option (List UInt8))} {s s1 s2 : AState} (H : Told cfg g gs s)
    {i : Nat} (hi : i < lastIdx g) {e : AEntry} (he : g[i]? = some e) (hty : 1 ≤ e.ty ∧ e.ty ≤ 22)
    (ha : hasArg e.ty = true) (h1 : doArg cfg i none s = ok s1) {fileK : List UInt8 → AState → Outcome AState}
    {t : List UInt8} (h2 : doValue cfg fileK t s1 = ok s2) : Told cfg g (gs ++ [(i, some t)]) s2 := by
  obtain ⟨x, hx, hxt⟩ := H.entry hi he
  have hlt : i < s.grid.length := by
    rcases Nat.lt_or_ge i s.grid.length with h | h
    · exact h
    · rw [List.getElem?_eq_none h] at hx; cases hx
  unfold doArg at h1
  rw [entryAt_ok.mpr hx, ok_bind] at h1
  dsimp only at h1
  rw [bind_eq_ok] at h1
  obtain ⟨clash, _, h1⟩ := h1
  rw [if_neg (by rw [hxt, ha]; simp)] at h1
  split at h1
  · cases h1
    unfold doValue at h2
    dsimp only at h2
    rw [bind_eq_ok] at h2
    obtain ⟨e0, he0, h2⟩ := h2
    have hcore : coresOf (s.grid.set i { x with used := true }) = coresOf g := (set_coresOf hx (e' := { x with used := true }) rfl).trans H.core
    have h0 : e0.short ≠ argvLast := by
      have he0 := entryAt_ok.mp he0
      have hl0 : 0 < lastIdx (s.grid.set i { x with used := true }) := by rw [lastIdx_core hcore]; omega
      have hlen : 0 < (s.grid.set i { x with used := true }).length := by simp; omega
      have := before_last hl0 hlen
      rw [List.getElem?_eq_getElem hlen] at he0
      cases he0
      exact this
    have hq : (s.queue ++ [some i])[s.tail]? = some (some i) := by
      rw [← H.free]; simp
    rw [if_pos ⟨h0, by simp [H.free]⟩, hq] at h2
    dsimp only at h2
    rw [entryAt_ok.mpr (List.getElem?_set_self hlt), ok_bind, bind_eq_ok] at h2
    obtain ⟨r, hr, h2⟩ := h2
    cases h2
    refine H.give hi hx (hxt ▸ hty) (b' := true) hr ?_ (by simp [H.free])
    dsimp only
    rw [List.set_set, stringToValue_used hr]
  · cases h1

theorem scanGrid_find {p : AEntry → Bool} : ∀ {g : List AEntry} (k : Nat) {m : Option Nat}, scanGrid p g k = ok m →
    m = ((List.range (lastIdx g)).find? fun i => (g[i]?.map p).getD false).map (k + ·)
  | [], _, _, h => by rw [scanGrid] at h; cases h
  | e :: es, k, m, h => by
    rw [scanGrid] at h
    rw [lastIdx_cons]
    by_cases he : e.short = argvLast
    · rw [if_pos he] at h ⊢
      cases h
      rfl
    · rw [if_neg he] at h ⊢
      rw [List.range_succ_eq_map, List.find?_cons]
      by_cases hp : p e = true
      · rw [if_pos hp] at h
        cases h
        simp [hp]
      · rw [if_neg hp] at h
        have := scanGrid_find (k + 1) h
        simp only [Bool.not_eq_true] at hp
        simp only [List.getElem?_cons_zero, Option.map_some, hp, Option.getD_some, List.find?_map, Option.map_map]
        rw [this]
        congr 1
        · funext i; simp; omega

theorem find_congr {α : Type} {p q : α → Bool} : ∀ {l : List α}, (∀ x ∈ l, p x = q x) → l.find? p = l.find? q
  | [], _ => rfl
  | a :: as, h => by
    rw [List.find?_cons, List.find?_cons, h a (by simp), find_congr fun x hx => h x (List.mem_cons_of_mem _ hx)]

theorem Told.scan {cfg : ACfg} {g : List AEntry} {gs : List (Nat × Option (List UInt8))} {s : AState} (H : Told cfg g gs s)
    (hl : lastIdx g ≤ g.length) (c : UInt8) {m : Option Nat}
    (h : scanGrid (fun e => e.short = c && (!e.used || e.array)) s.grid 0 = ok m) :
    m = ((List.range (lastIdx g)).filter fun i => (g[i]?.map AEntry.short) == some c).find?
      fun i => !(gs.map Prod.fst).contains i || (g[i]?.map AEntry.array) == some true := by
  have := scanGrid_find 0 h
  rw [this, List.find?_filter, lastIdx_core H.core]
  have hz : ∀ o : Option Nat, o.map (0 + ·) = o := by intro o; cases o <;> simp
  rw [hz]
  refine find_congr fun i hi => ?_
  have hi : i < lastIdx g := by simpa using hi
  have hlt : i < g.length := by omega
  obtain ⟨x, hx, hu, _⟩ := H.at i hi g[i] (List.getElem?_eq_getElem hlt)
  obtain ⟨y, hy, hc⟩ := get_core H.core hx
  rw [List.getElem?_eq_getElem hlt] at hy
  cases hy
  have h1 := congrArg AEntry.short hc
  have h1 : x.short = g[i].short := h1
  have h2 := congrArg AEntry.array hc
  have h2 : x.array = g[i].array := h2
  rw [hx, List.getElem?_eq_getElem hlt]
  simp only [Option.map_some, Option.getD_some, hu, h1, h2]
  have key : ∀ (a : UInt8) (b x : Bool), (decide (a = c) && (!b || x)) =
      decide ((some a == some c) = true ∧ (!b || some x == some true) = true) := by
    intro a b x
    cases b <;> cases x <;> by_cases h : a = c <;> simp [h]
  exact key _ _ _

/-- An argument by position. -/
theorem Told.plain {cfg : ACfg} {g : List AEntry} {gs : List (Nat × Option (List UInt8))} {s s' : AState} (H : Told cfg g gs s)
    (hl : lastIdx g ≤ g.length) (hg : Spec.Typed g) {fileK : List UInt8 → AState → Outcome AState} {t : List UInt8}
    (h : doValue cfg fileK t s = ok s') :
    Told cfg g (gs ++ match Spec.receiver g (gs.map Prod.fst) with | some i => [(i, some t)] | none => []) s' := by
  unfold doValue at h
  rw [bind_eq_ok] at h
  obtain ⟨e0, _, h⟩ := h
  rw [if_neg (by rw [H.free]; simp), bind_eq_ok] at h
  obtain ⟨m, hm, h⟩ := h
  have hm' := H.scan hl 254 hm
  have step : ∀ (c : UInt8) (i : Nat), (c = 254 ∨ c = 253) → scanGrid (fun e => e.short = c && (!e.used || e.array)) s.grid 0 = ok (some i) →
      (entryAt s.grid i >>= fun e => stringToValue cfg (some t) e >>= fun r =>
        ok { s with grid := s.grid.set i { r.2 with used := true }, okay := s.okay && r.1 }) = ok s' →
      Told cfg g (gs ++ [(i, some t)]) s' := by
    intro c i hc hsc h
    have hf := H.scan hl c hsc
    have hi := List.mem_of_find?_eq_some hf.symm
    rw [List.mem_filter] at hi
    have hi1 : i < lastIdx g := by simpa using hi.1
    have hlt : i < g.length := by omega
    have hge := List.getElem?_eq_getElem hlt
    have hs : g[i].short = c := by
      have := hi.2
      rw [hge] at this
      simpa using this
    have hty := hg i hi1 _ hge (by rw [hs]; rcases hc with rfl | rfl <;> decide) (by rw [hs]; rcases hc with rfl | rfl <;> decide)
    obtain ⟨x, hx, hxt⟩ := H.entry hi1 hge
    rw [entryAt_ok.mpr hx, ok_bind, bind_eq_ok] at h
    obtain ⟨r, hr, h⟩ := h
    cases h
    exact H.give hi1 hx (hxt ▸ hty) (b := x.used) (b' := true) hr rfl H.free
  unfold Spec.receiver Spec.positions
  rw [List.find?_append]
  cases m with
  | some i =>
    rw [← hm']
    exact step 254 i (.inl rfl) hm h
  | none =>
    rw [← hm']
    dsimp only at h
    rw [bind_eq_ok] at h
    obtain ⟨m2, hm2, h⟩ := h
    have hm2' := H.scan hl 253 hm2
    rw [Option.none_or]
    cases m2 with
    | some i =>
      rw [← hm2']
      exact step 253 i (.inr rfl) hm2 h
    | none =>
      rw [← hm2']
      cases h
      dsimp only
      rw [List.append_nil]
      exact ⟨H.core, H.free, H.at⟩

/-! #### Whole lines -/

theorem gifts_append (g : List AEntry) : ∀ (as bs : List Spec.Item) (given : List Nat),
    Spec.gifts g (as ++ bs) given = Spec.gifts g as given ++ Spec.gifts g bs (given ++ (Spec.gifts g as given).map Prod.fst)
  | [], bs, given => by simp [Spec.gifts]
  | .flag i :: as, bs, given => by
    rw [List.cons_append, Spec.gifts, Spec.gifts, gifts_append g as bs]
    simp
  | .option i t :: as, bs, given => by
    rw [List.cons_append, Spec.gifts, Spec.gifts, gifts_append g as bs]
    simp
  | .plain t :: as, bs, given => by
    rw [List.cons_append, Spec.gifts, Spec.gifts]
    cases Spec.receiver g given with
    | none => exact gifts_append g as bs given
    | some i =>
      dsimp only
      rw [gifts_append g as bs]
      simp

theorem Spec.NotOption.not_option {t : List UInt8} (ht : Spec.NotOption t) :
    t ≠ ascii "--" ∧ t.take 2 ≠ ascii "--" ∧ ¬ (t.take 1 = ascii "-" ∧ t.length ≠ 1) := by
  have e2 : ascii "--" = [45, 45] := by decide
  have e1 : ascii "-" = [45] := by decide
  unfold Spec.NotOption at ht
  rw [e1] at ht
  rw [e1, e2]
  rcases ht with h | rfl
  · refine ⟨?_, ?_, fun h' => h h'.1⟩
    · rintro rfl; exact h rfl
    · intro h2
      apply h
      have := congrArg (List.take 1) h2
      rw [List.take_take] at this
      exact this
  · refine ⟨by decide, by decide, by decide⟩

theorem doList_word {cfg : ACfg} {fileK : List UInt8 → AState → Outcome AState} {t : List UInt8} (ht : Spec.NotOption t)
    (rest : List (List UInt8)) (s : AState) :
    doList cfg fileK (t :: rest) false s = doValue cfg fileK t s >>= fun s =>
      doList cfg fileK rest false s >>= fun r => ok (r.1, t :: r.2) := by
  obtain ⟨h1, h2, h3⟩ := ht.not_option
  rw [doList, if_neg (by simp), if_neg (fun h => h1 h.1), if_neg (fun h => h2 h.2), if_neg (fun h => h3 h.2)]

theorem stringToValue_true {cfg : ACfg} {t : Option (List UInt8)} {e : AEntry} {r : Bool × AEntry}
    (h : stringToValue cfg t e = ok r) (hty : 1 ≤ e.ty ∧ e.ty ≤ 22) : r.1 = true := by
  unfold stringToValue at h
  rw [if_neg (by omega)] at h
  split at h
  · rw [bind_eq_ok] at h
    obtain ⟨v, _, h⟩ := h
    cases h
    rfl
  · rw [bind_eq_ok] at h
    obtain ⟨v, _, h⟩ := h
    cases h
    rfl
  · cases h

/-- A negative number behind an option that waits for one. -/
theorem Told.number {cfg : ACfg} {g : List AEntry} {gs : List (Nat × Option (List UInt8))} {s s1 s2 : AState} (H : Told cfg g gs s)
    (hl : lastIdx g < g.length) {i : Nat} (hi : i < lastIdx g) {e : AEntry} (he : g[i]? = some e) (ha : e.ty ∈ [6, 8, 10, 12, 13])
    (h1 : doArg cfg i none s = ok s1) {c : UInt8} {cs : List UInt8} (hn : ∀ x ∈ c :: cs, x ∈ ascii "0123456789+-.")
    (ho : ∀ j < lastIdx g, ∀ e, g[j]? = some e → e.short ≠ c) (fileK : List UInt8 → AState → Outcome AState)
    (h2 : doShort cfg (45 :: c :: cs) s1 = ok s2) : doValue cfg fileK (45 :: c :: cs) s1 = ok s2 := by
  obtain ⟨x, hx, hxt⟩ := H.entry hi he
  have hlt : i < s.grid.length := by
    rcases Nat.lt_or_ge i s.grid.length with h | h
    · exact h
    · rw [List.getElem?_eq_none h] at hx; cases hx
  have hty : e.ty = 6 ∨ e.ty = 8 ∨ e.ty = 10 ∨ e.ty = 12 ∨ e.ty = 13 := by simpa using ha
  have ha' : hasArg e.ty = true := by rcases hty with h | h | h | h | h <;> rw [h] <;> rfl
  unfold doArg at h1
  rw [entryAt_ok.mpr hx, ok_bind] at h1
  dsimp only at h1
  rw [bind_eq_ok] at h1
  obtain ⟨clash, _, h1⟩ := h1
  rw [if_neg (by rw [hxt, ha']; simp)] at h1
  split at h1
  · cases h1
    have hcore : coresOf (s.grid.set i { x with used := true }) = coresOf g := (set_coresOf hx (e' := { x with used := true }) rfl).trans H.core
    have hlen := congrArg List.length hcore
    simp only [coresOf, List.length_map] at hlen
    have hl' : lastIdx (s.grid.set i { x with used := true }) < (s.grid.set i { x with used := true }).length := by
      rw [lastIdx_core hcore]; omega
    have hnum : isNumber (45 :: c :: cs) = true := by
      unfold isNumber
      simp only [ne_eq, reduceCtorEq, not_false_eq_true, decide_true, Bool.true_and, List.all_eq_true]
      intro y hy
      rcases List.mem_cons.mp hy with rfl | hy
      · decide
      · simpa using hn y hy
    have hdig : ∀ y ∈ ascii "0123456789+-.", y ≠ 61 ∧ y ≠ 63 := by decide
    have h61 : (61 : UInt8) ∉ (45 : UInt8) :: c :: cs := by
      intro hm
      rcases List.mem_cons.mp hm with h | hm
      · cases h
      · exact (hdig _ (hn 61 hm)).1 rfl
    have h63 : c ≠ 63 := (hdig c (hn c (by simp))).2
    have hq : (s.queue ++ [some i])[s.tail]? = some (some i) := by
      rw [← H.free]; simp
    unfold doShort at h2
    dsimp only at h2
    rw [(punch_none cfg h61).1, (punch_none cfg h61).2, if_neg (by simp)] at h2
    rw [show (45 :: c :: cs : List UInt8).drop 1 = c :: cs from rfl] at h2
    rw [clusterLoop, scanGrid_absent 0 hl', ok_bind] at h2
    · dsimp only at h2
      rw [if_neg h63, if_pos ⟨rfl, hnum, by simp [H.free]⟩, hq] at h2
      dsimp only at h2
      rw [entryAt_ok.mpr (List.getElem?_set_self hlt), ok_bind] at h2
      rw [if_pos (by dsimp only; rw [hxt]; exact hty), bind_eq_ok] at h2
      obtain ⟨r, hr, h2⟩ := h2
      cases h2
      unfold doValue
      dsimp only
      have h0 : ∃ e0, entryAt (s.grid.set i { x with used := true }) 0 = ok e0 ∧ e0.short ≠ argvLast := by
        have hl0 : 0 < lastIdx (s.grid.set i { x with used := true }) := by rw [lastIdx_core hcore]; omega
        have hlen0 : 0 < (s.grid.set i { x with used := true }).length := by omega
        exact ⟨_, entryAt_lt hlen0, before_last hl0 hlen0⟩
      obtain ⟨e0, he0, h0⟩ := h0
      rw [he0, ok_bind, if_pos ⟨h0, by simp [H.free]⟩, hq]
      dsimp only
      rw [entryAt_ok.mpr (List.getElem?_set_self hlt), ok_bind, hr, ok_bind]
      have hr1 := stringToValue_true hr (by dsimp only; rw [hxt]; omega)
      rw [hr1, Bool.and_true]
    · intro j hj y hy
      rw [lastIdx_core hcore] at hj
      obtain ⟨z, hz, hcz⟩ := get_core hcore hy
      have h1 := congrArg AEntry.short hcz
      have h1 : y.short = z.short := h1
      rw [h1]
      simpa using ho j hj z hz
  · cases h1

theorem doList_number {cfg : ACfg} {fileK : List UInt8 → AState → Outcome AState} {c : UInt8} (hc : c ≠ 45) (cs : List UInt8)
    (rest : List (List UInt8)) (s : AState) :
    doList cfg fileK ((45 :: c :: cs) :: rest) false s = doShort cfg (45 :: c :: cs) s >>= fun s =>
      doList cfg fileK rest false s >>= fun r => ok (r.1, punch cfg (45 :: c :: cs) :: r.2) := by
  have e2 : ascii "--" = [45, 45] := by decide
  have e1 : ascii "-" = [45] := by decide
  rw [doList, if_neg (by simp), if_neg (by rw [e2]; simp [hc]), if_neg (by rw [e2]; simp [hc]), if_pos (by rw [e1]; simp)]

/-- What one item does. -/
theorem Told.says {cfg : ACfg} (hcl : cfg.closeEnable = true) {g : List AEntry} (hl : lastIdx g < g.length) (hg : Spec.Typed g)
    {fileK : List UInt8 → AState → Outcome AState} {a : Spec.Item} {ws : List (List UInt8)} (ha : Spec.Says g a ws)
    {gs : List (Nat × Option (List UInt8))} {s : AState} (H : Told cfg g gs s) {rest : List (List UInt8)}
    {r : AState × List (List UInt8)} (h : doList cfg fileK (ws ++ rest) false s = ok r) :
    ∃ s' r', Told cfg g (gs ++ Spec.gifts g [a] (gs.map Prod.fst)) s' ∧ doList cfg fileK rest false s' = ok r' ∧ r'.1 = r.1 := by
  cases ha with
  | flag i w hn hf =>
    obtain ⟨e, he, hty⟩ := hn.typed hg
    rw [List.singleton_append, doList_names hn none (punch_none cfg hn.noEq) (List.prefix_rfl) hl H.core, bind_eq_ok] at h
    obtain ⟨s', h1, h⟩ := h
    rw [bind_eq_ok] at h
    obtain ⟨r', h2, h⟩ := h
    cases h
    exact ⟨s', r', by simpa [Spec.gifts] using H.arg hn.lt he hty (.inr (hf e he)) h1, h2, rfl⟩
  | next i w t hn hf ht =>
    obtain ⟨e, he, hty⟩ := hn.typed hg
    rw [List.cons_append, doList_names hn none (punch_none cfg hn.noEq) (List.prefix_rfl) hl H.core, bind_eq_ok] at h
    obtain ⟨s1, h1, h⟩ := h
    rw [bind_eq_ok] at h
    obtain ⟨r1, h2, h⟩ := h
    cases h
    rw [List.singleton_append, doList_word ht, bind_eq_ok] at h2
    obtain ⟨s2, h3, h2⟩ := h2
    rw [bind_eq_ok] at h2
    obtain ⟨r', h4, h2⟩ := h2
    cases h2
    exact ⟨s2, r', by simpa [Spec.gifts] using H.next hn.lt he hty (hf e he) h1 h3, h4, rfl⟩
  | number i w c cs hn hf hc hd ho =>
    obtain ⟨e, he, hty⟩ := hn.typed hg
    rw [List.cons_append, doList_names hn none (punch_none cfg hn.noEq) (List.prefix_rfl) hl H.core, bind_eq_ok] at h
    obtain ⟨s1, h1, h⟩ := h
    rw [bind_eq_ok] at h
    obtain ⟨r1, h2, h⟩ := h
    cases h
    rw [List.singleton_append, doList_number hc, bind_eq_ok] at h2
    obtain ⟨s2, h3, h2⟩ := h2
    rw [bind_eq_ok] at h2
    obtain ⟨r', h4, h2⟩ := h2
    cases h2
    have ha' : hasArg e.ty = true := by
      have : e.ty = 6 ∨ e.ty = 8 ∨ e.ty = 10 ∨ e.ty = 12 ∨ e.ty = 13 := by simpa using hf e he
      rcases this with h | h | h | h | h <;> rw [h] <;> rfl
    exact ⟨s2, r', by simpa [Spec.gifts] using H.next hn.lt he hty ha' h1 (H.number hl hn.lt he (hf e he) h1 hd ho fileK h3), h4, rfl⟩
  | close i w t hn =>
    obtain ⟨e, he, hty⟩ := hn.typed hg
    rw [List.singleton_append, doList_names hn (some t) (punch_close hcl hn.noEq t) (List.prefix_append _ _) hl H.core, bind_eq_ok] at h
    obtain ⟨s', h1, h⟩ := h
    rw [bind_eq_ok] at h
    obtain ⟨r', h2, h⟩ := h
    cases h
    exact ⟨s', r', by simpa [Spec.gifts] using H.arg hn.lt he hty (.inl rfl) h1, h2, rfl⟩
  | plain t ht =>
    rw [List.singleton_append, doList_word ht, bind_eq_ok] at h
    obtain ⟨s', h1, h⟩ := h
    rw [bind_eq_ok] at h
    obtain ⟨r', h2, h⟩ := h
    cases h
    refine ⟨s', r', ?_, h2, rfl⟩
    have := H.plain (by omega) hg h1
    rw [Spec.gifts]
    cases hr : Spec.receiver g (gs.map Prod.fst) <;> rw [hr] at this <;> exact this

/-- What a whole line does, up to `--`. -/
theorem Told.line {cfg : ACfg} (hcl : cfg.closeEnable = true) {g : List AEntry} (hl : lastIdx g < g.length) (hg : Spec.Typed g)
    {fileK : List UInt8 → AState → Outcome AState} {as : List Spec.Item} {ws : List (List UInt8)} (ha : Spec.Line g as ws) :
    ∀ {gs : List (Nat × Option (List UInt8))} {s : AState}, Told cfg g gs s → ∀ {rest : List (List UInt8)}
    {r : AState × List (List UInt8)}, doList cfg fileK (ws ++ rest) false s = ok r →
    ∃ s' r', Told cfg g (gs ++ Spec.gifts g as (gs.map Prod.fst)) s' ∧ doList cfg fileK rest false s' = ok r' ∧ r'.1 = r.1 := by
  induction ha with
  | nil => intro gs s H rest r h; exact ⟨s, r, by simpa [Spec.gifts] using H, h, rfl⟩
  | @cons a as w ws h1 hs ih =>
    intro gs s H rest r h
    rw [List.append_assoc] at h
    obtain ⟨s1, r1, H1, h2, e1⟩ := H.says hcl hl hg h1 h
    obtain ⟨s2, r2, H2, h3, e2⟩ := ih H1 h2
    refine ⟨s2, r2, ?_, h3, e2.trans e1⟩
    have := gifts_append g [a] as (gs.map Prod.fst)
    rw [List.singleton_append] at this
    rw [this]
    simpa using H2

/-- What is behind `--`. -/
theorem Told.rest {cfg : ACfg} (hlt : cfg.lastToggle = false) {g : List AEntry} (hl : lastIdx g < g.length) (hg : Spec.Typed g)
    {fileK : List UInt8 → AState → Outcome AState} : ∀ (ts : List (List UInt8))
    {gs : List (Nat × Option (List UInt8))} {s : AState}, Told cfg g gs s →
    ∀ {r : AState × List (List UInt8)}, doList cfg fileK ts true s = ok r →
    Told cfg g (gs ++ Spec.gifts g (ts.map Spec.Item.plain) (gs.map Prod.fst)) r.1
  | [], gs, s, H, r, h => by
    rw [doList] at h
    cases h
    simpa [Spec.gifts] using H
  | t :: ts, gs, s, H, r, h => by
    rw [doList, if_neg (by rw [hlt]; simp), if_neg (by simp), if_neg (by simp), if_neg (by simp), bind_eq_ok] at h
    obtain ⟨s1, h1, h⟩ := h
    rw [bind_eq_ok] at h
    obtain ⟨r1, h2, h⟩ := h
    cases h
    have H1 := H.plain (by omega) hg h1
    have H2 := Told.rest hlt hl hg ts H1 h2
    rw [List.map_cons, Spec.gifts]
    cases hr : Spec.receiver g (gs.map Prod.fst) with
    | none => rw [hr] at H2; simpa using H2
    | some i => rw [hr] at H2; simpa using H2

/-- The variables as they are after `preprocess_array`. -/
theorem preLoop_vars {n : Nat} : ∀ {g g' : List AEntry} {i : Nat} {prev : Option AEntry} {b1 b2 : Bool},
    preLoop n g i prev b1 b2 = ok (some g') →
    g' = g.map fun e => { e with used := false, var := if e.array then some (.many []) else e.var }
  | [], g', _, _, _, _, h => by rw [preLoop] at h; cases h; rfl
  | e :: es, g', i, prev, b1, b2, h => by
    rw [preLoop] at h
    split at h
    · cases h
    split at h
    · cases h
    split at h
    · cases h
    split at h
    · cases h
    split at h
    · cases h
    split at h
    · cases h
    split at h
    · cases h
    rw [bind_eq_ok] at h
    obtain ⟨r, h1, h⟩ := h
    cases r with
    | none => cases h
    | some es' =>
      cases h
      rw [List.map_cons, preLoop_vars h1]

theorem told_start {cfg : ACfg} {g g0 : List AEntry} (h : preprocess g = ok (some g0)) (cap : Nat) (stdin : List UInt8)
    (fds : Nat) : Told cfg g [] ⟨g0, [], cap, 0, true, stdin, fds, 0⟩ := by
  obtain ⟨h1, h2, h3⟩ := preprocess_core h
  refine ⟨h1, rfl, ?_⟩
  intro i hi e he
  unfold preprocess at h
  dsimp only at h
  change (if lastIdx g = g.length then ub else preLoop (lastIdx g) (g.take (lastIdx g)) 0 none false false >>= fun r =>
    ok (r.map (· ++ g.drop (lastIdx g)))) = ok (some g0) at h
  rw [if_neg (by omega), bind_eq_ok] at h
  obtain ⟨r, hr, h⟩ := h
  cases r with
  | none => cases h
  | some es =>
    cases h
    have := preLoop_vars hr
    subst this
    refine ⟨{ e with used := false, var := if e.array then some (.many []) else e.var }, ?_, rfl, ?_⟩
    · dsimp only
      rw [List.getElem?_append_left (by simp; omega), List.getElem?_map, List.getElem?_take, if_pos hi, he]
      rfl
    · exact Spec.After.none

/-! #### Options written together -/

theorem doList_head {cfg : ACfg} {fileK : List UInt8 → AState → Outcome AState} {w : List UInt8} (hw : w ≠ ascii "--") (s : AState) :
    ∃ (F : Outcome AState) (p : List UInt8), (∀ rest, doList cfg fileK (w :: rest) false s = F >>= fun s =>
      doList cfg fileK rest false s >>= fun r => ok (r.1, p :: r.2)) := by
  by_cases h1 : w.take 2 = ascii "--"
  · refine ⟨doLong cfg fileK w s, punch cfg w, fun rest => ?_⟩
    rw [doList, if_neg (fun h => hw h.1), if_neg (fun h => hw h.1), if_pos ⟨rfl, h1⟩]
  · by_cases h2 : w.take 1 = ascii "-" ∧ w.length ≠ 1
    · refine ⟨doShort cfg w s, punch cfg w, fun rest => ?_⟩
      rw [doList, if_neg (fun h => hw h.1), if_neg (fun h => hw h.1), if_neg (fun h => h1 h.2), if_pos ⟨rfl, h2⟩]
    · refine ⟨doValue cfg fileK w s, w, fun rest => ?_⟩
      rw [doList, if_neg (fun h => hw h.1), if_neg (fun h => hw h.1), if_neg (fun h => h1 h.2), if_neg (fun h => h2 h.2)]

theorem cluster_apart {cfg : ACfg} {fileK : List UInt8 → AState → Outcome AState} {g : List AEntry} (hl : lastIdx g < g.length)
    (full : List UInt8) {rest : List (List UInt8)} {r : AState × List (List UInt8)} : ∀ (cs : List UInt8) (first : Bool) (s s' : AState),
    (∀ c ∈ cs, (∃ i, Spec.OptionAt g i c) ∧ c ≠ 45 ∧ c ≠ 61) → coresOf s.grid = coresOf g →
    clusterLoop cfg full none cs first s = ok s' → doList cfg fileK rest false s' = ok r →
    coresOf s'.grid = coresOf g ∧ ∃ r', doList cfg fileK (cs.map (fun c => [45, c]) ++ rest) false s = ok r' ∧ r'.1 = r.1
  | [], _, s, s', _, hc, h, hr => by
    rw [clusterLoop] at h
    cases h
    exact ⟨hc, r, hr, rfl⟩
  | c :: cs, first, s, s', hcs, hc, h, hr => by
    obtain ⟨⟨i, ho⟩, hne, hne'⟩ := hcs c (by simp)
    rw [clusterLoop, ho.scan hc hl, ok_bind] at h
    dsimp only at h
    rw [bind_eq_ok] at h
    obtain ⟨s1, h1, h⟩ := h
    have hc1 := (shape_inv cfg (coresOf g)).arg _ _ _ _ hc h1
    obtain ⟨hc', r', h2, e2⟩ := cluster_apart hl full cs false s1 s' (fun x hx => hcs x (by simp [hx])) hc1 h hr
    refine ⟨hc', (r'.1, punch cfg [45, c] :: r'.2), ?_, e2⟩
    have h61 : (61 : UInt8) ∉ [(45 : UInt8), c] := by
      intro hm
      simp at hm
      exact hne' hm.symm
    rw [List.map_cons, List.cons_append, doList_number hne]
    unfold doShort
    dsimp only
    rw [(punch_none cfg h61).1, (punch_none cfg h61).2, if_neg (by simp)]
    show (clusterLoop cfg [45, c] none [c] true s >>= _) = _
    rw [clusterLoop, ho.scan hc hl, ok_bind]
    dsimp only
    rw [h1, ok_bind, clusterLoop, ok_bind, h2, ok_bind]

/-- Options written together do the same as apart. -/
theorem together_effect {cfg : ACfg} {fuel : Nat} {g : List AEntry} (hl : lastIdx g < g.length)
    {rest ws ws' : List (List UInt8)} (ht : Spec.Together g ws ws') : ∀ {s : AState}, coresOf s.grid = coresOf g →
    ∀ {r : AState × List (List UInt8)}, doList cfg (fileArgs cfg fuel) (ws' ++ rest) false s = ok r →
    ∃ r', doList cfg (fileArgs cfg fuel) (ws ++ rest) false s = ok r' ∧ r'.1 = r.1 := by
  induction ht with
  | nil => intro s _ r h; exact ⟨r, h, rfl⟩
  | @apart ws ws' w hw ht ih =>
    intro s hc r h
    obtain ⟨F, p, hF⟩ := doList_head (cfg := cfg) (fileK := fileArgs cfg fuel) hw s
    have hinv := doList_inv (shape_inv cfg (coresOf g)).toAInv0 (fileArgs_inv (shape_inv cfg (coresOf g)) fuel) [w] false s
    rw [List.cons_append, hF, bind_eq_ok] at h
    obtain ⟨s1, h1, h⟩ := h
    rw [bind_eq_ok] at h
    obtain ⟨r1, h2, h⟩ := h
    cases h
    have hc1 : coresOf s1.grid = coresOf g := by
      refine hinv (s1, [p]) hc ?_
      rw [hF, h1, ok_bind, doList, ok_bind]
    obtain ⟨r', h3, e3⟩ := ih hc1 h2
    exact ⟨(r'.1, p :: r'.2), by rw [List.cons_append, hF, h1, ok_bind, h3, ok_bind], e3⟩
  | @cluster ws ws' cs hne hcs ht ih =>
    intro s hc r h
    obtain ⟨c, cs', rfl⟩ : ∃ c cs', cs = c :: cs' := by
      cases cs with
      | nil => exact absurd rfl hne
      | cons c cs' => exact ⟨c, cs', rfl⟩
    have h45 := (hcs c (by simp)).2.1
    have h61 : (61 : UInt8) ∉ (45 : UInt8) :: c :: cs' := by
      intro hm
      rcases List.mem_cons.mp hm with h | hm
      · cases h
      · exact (hcs 61 hm).2.2 rfl
    rw [List.cons_append, doList_number h45, bind_eq_ok] at h
    obtain ⟨s1, h1, h⟩ := h
    rw [bind_eq_ok] at h
    obtain ⟨r1, h2, h⟩ := h
    cases h
    unfold doShort at h1
    dsimp only at h1
    rw [(punch_none cfg h61).1, (punch_none cfg h61).2, if_neg (by simp)] at h1
    have hc1 := clusterLoop_inv (shape_inv cfg (coresOf g)).toAInv0 _ _ _ _ _ _ hc h1
    obtain ⟨r2, h3, e3⟩ := ih hc1 h2
    obtain ⟨_, r3, h4, e4⟩ := cluster_apart hl _ (c :: cs') true s s1 hcs hc h1 h3
    exact ⟨r3, by rw [List.append_assoc]; exact h4, e4.trans e3⟩

/-- What has been told when all words have been read. -/
theorem told_process {cfg : ACfg} (hcl : cfg.closeEnable = true) (hlt : cfg.lastToggle = false) {fuel : Nat}
    {g g0 : List AEntry} (hpre : preprocess g = ok (some g0)) (hg : Spec.Typed g) {argv0 : List UInt8} (henv : envArgs cfg argv0 = [])
    {as : List Spec.Item} {ws : List (List UInt8)} (hline : Spec.Written g as ws) (more : Option (List (List UInt8)))
    {stdin : List UInt8} {fds : Nat} {r : AResult}
    (h : argvProcess cfg fuel g (argv0 :: ws ++ (match more with | none => [] | some ts => ascii "--" :: ts)) stdin fds = ok r) :
    ∃ s : AState, Told cfg g (Spec.gifts g (as ++ (more.getD []).map Spec.Item.plain) []) s ∧ s.grid = r.grid := by
  have hl := (preprocess_core hpre).2.1
  unfold argvProcess at h
  rw [List.cons_append] at h
  dsimp only at h
  rw [hpre, ok_bind, henv] at h
  dsimp only at h
  unfold processLists at h
  dsimp only at h
  have e0 : ∀ b : Bool, (if b then ([] : List (List UInt8)) else []) = [] := by intro b; cases b <;> rfl
  have d0 : ∀ fk s, doList cfg fk [] false s = ok (s, []) := by intro fk s; rw [doList]
  rw [e0, e0] at h
  simp only [d0, ok_bind] at h
  rw [bind_eq_ok] at h
  obtain ⟨r2, h2, h⟩ := h
  rw [bind_eq_ok] at h
  obtain ⟨_, _, h⟩ := h
  rw [bind_eq_ok] at h
  obtain ⟨_, _, h⟩ := h
  cases h
  obtain ⟨ws0, hline, htog⟩ := hline
  obtain ⟨r2', h2', e2⟩ := together_effect hl htog (preprocess_core hpre).1 h2
  obtain ⟨s', r', H, h3, e3⟩ := Told.line hcl hl hg hline (told_start hpre _ _ _) h2'
  have e3 := e3.trans e2
  refine ⟨r2.1, ?_, rfl⟩
  rw [← e3]
  cases more with
  | none =>
    dsimp only at h3
    rw [d0] at h3
    cases h3
    simpa using H
  | some ts =>
    dsimp only at h3
    rw [doList, if_neg (by simp), if_pos (by simp), bind_eq_ok] at h3
    obtain ⟨r4, h4, h3⟩ := h3
    cases h3
    have := Told.rest hlt hl hg ts H h4
    rw [gifts_append]
    simpa using this

/-- **C110.** If a command line is accepted, written in any of the ways there are (short options one by one, long options or
unambiguous abbreviations, values behind `=` or in the next word, arguments by position, and anything behind `--`), then
every entry has been given exactly if it is meant, and its variable holds exactly what was said, in order.  (The same holds
if it is rejected, unless the array itself is.) -/
theorem C110_meaning {cfg : ACfg} (hcl : cfg.closeEnable = true) (hlt : cfg.lastToggle = false) {fuel : Nat}
    {g : List AEntry} (hg : Spec.Typed g) {argv0 : List UInt8} (henv : envArgs cfg argv0 = [])
    {as : List Spec.Item} {ws : List (List UInt8)} (hline : Spec.Written g as ws) (more : Option (List (List UInt8)))
    {stdin : List UInt8} {fds : Nat} {r : AResult}
    (h : argvProcess cfg fuel g (argv0 :: ws ++ (match more with | none => [] | some ts => ascii "--" :: ts)) stdin fds = ok r)
    (hn : r.noError = true ∨ ∃ g0, preprocess g = ok (some g0)) (i : Nat) (hi : i < lastIdx g) (e : AEntry) (he : g[i]? = some e) :
    ∃ e', r.grid[i]? = some e' ∧
      (e'.used = true ↔ i ∈ (Spec.gifts g (as ++ (more.getD []).map Spec.Item.plain) []).map Prod.fst) ∧
      Spec.After cfg e (Spec.textsOf i (Spec.gifts g (as ++ (more.getD []).map Spec.Item.plain) [])) e'.var := by
  obtain ⟨g0, hpre⟩ : ∃ g0, preprocess g = ok (some g0) := hn.elim (preprocess_some h) id
  obtain ⟨s, H, hs⟩ := told_process hcl hlt hpre hg henv hline more h
  obtain ⟨e', he', hu, ha⟩ := H.at i hi e he
  rw [hs] at he'
  refine ⟨e', he', ?_, ha⟩
  rw [hu, List.contains_iff_mem]

/-- **C110.** What is not said leaves the variable as it was (an array is empty). -/
theorem C110_default {cfg : ACfg} {e : AEntry} {v : Option AVar} (h : Spec.After cfg e [] v) :
    v = if e.array then some (.many []) else e.var := by
  generalize hts : ([] : List (Option (List UInt8))) = ts at h
  cases h with
  | none => rfl
  | one => simp at hts
  | many => simp at hts

/-- **C110.** A text option that is said several times has its last value; an array has all of them in order. -/
theorem C110_text {cfg : ACfg} {e : AEntry} (hty : e.ty = 5) (ts : List (List UInt8)) (t : List UInt8) {v : Option AVar}
    (h : Spec.After cfg e ((ts ++ [t]).map some) v) :
    v = if e.array then some (.many ((ts ++ [t]).map fun t => .str (some t))) else some (.one (.str (some t))) := by
  have conv : ∀ t old, convert cfg e.ty (some t) old = ok (.str (some t)) := by intro t old; rw [hty]; rfl
  have many : ∀ (xs : List (Option (List UInt8))) (v : Option AVar), Spec.After cfg e xs v → e.array = true →
      ∀ ts : List (List UInt8), xs = ts.map some → v = some (.many (ts.map fun t => .str (some t))) := by
    intro xs v h
    induction h with
    | none => intro ha ts hts; rw [if_pos ha]; rw [List.map_eq_nil_iff.mp hts.symm]; rfl
    | one ts t old v ha => intro ha'; rw [ha] at ha'; cases ha'
    | many ts t vs v ha h hv ih =>
      intro _ ts' hts
      rcases List.eq_nil_or_concat ts' with rfl | ⟨xs, x, rfl⟩
      · simp at hts
      · simp only [List.concat_eq_append, List.map_append, List.map_cons, List.map_nil] at hts ⊢
        obtain ⟨h1, h2⟩ := List.append_inj' hts rfl
        cases h2
        have := ih ha xs h1
        cases this
        rw [conv] at hv
        cases hv
        rfl
  rw [List.map_append] at h
  by_cases ha : e.array = true
  · rw [if_pos ha]
    exact many _ _ h ha _ (by simp)
  · rw [if_neg ha]
    generalize hx : ts.map some ++ [t].map some = xs at h
    cases h with
    | none => simp at hx
    | one ts' t' old v ha' h hv =>
      obtain ⟨_, h2⟩ := List.append_inj' hx rfl
      cases h2
      rw [conv] at hv
      cases hv
      rfl
    | many _ _ _ _ ha' => exact absurd ha' ha

/-- The line `-a -n 5 --out=x in -v -- -z`, in which every way of writing occurs, means what it says. -/
theorem argvLine : Spec.Line argvGrid [.flag 0, .option 4 (ascii "5"), .option 5 (ascii "x"), .plain (ascii "in"), .flag 3]
      [ascii "-a", ascii "-n", ascii "5", ascii "--out=x", ascii "in", ascii "-v"] ∧
    Spec.Typed argvGrid ∧ envArgs argvCfg (ascii "prog") = [] ∧
    (argvRun argvGrid ([ascii "prog", ascii "-a", ascii "-n", ascii "5", ascii "--out=x", ascii "in", ascii "-v"] ++
      ascii "--" :: [ascii "-z"])).noError = true ∧
    Spec.gifts argvGrid [.flag 0, .option 4 (ascii "5"), .option 5 (ascii "x"), .plain (ascii "in"), .flag 3, .plain (ascii "-z")] [] =
      [(0, none), (4, some (ascii "5")), (5, some (ascii "x")), (6, some (ascii "in")), (3, none), (7, some (ascii "-z"))] := by
  have opt : ∀ (k : Nat) (c : UInt8) (e : AEntry), argvGrid[k]? = some e → e.short = c → k < 8 →
      (∀ j < 8, j < k → (argvGrid[j]?.map AEntry.short) ≠ some c) → Spec.OptionAt argvGrid k c := by
    intro k c e he hs hk hj
    refine ⟨hk, ⟨e, he, hs⟩, fun j hjk e' he' hc => hj j (by omega) hjk (by rw [he']; simp [hc])⟩
  refine ⟨?_, ?_, by decide +kernel, by decide +kernel, by decide +kernel⟩
  · refine .cons (w := [ascii "-a"]) (.flag 0 _ (.short 97 (opt 0 97 _ rfl rfl (by omega) (by decide)) (by decide)) ?_) ?_
    · intro e he; cases he; rfl
    refine .cons (w := [ascii "-n", ascii "5"]) (.next 4 _ _ (.short 110 (opt 4 110 _ rfl rfl (by omega) (by decide)) (by decide)) ?_ (by unfold Spec.NotOption; decide)) ?_
    · intro e he; cases he; rfl
    refine .cons (w := [ascii "--out=x"]) (.close 5 (ascii "--out") (ascii "x") (.long _ rfl (by decide) (by decide) (ascii "output") (ascii "out") rfl
      (by decide) (by decide) ⟨ascii "put", by decide⟩ ?_)) ?_
    · intro j hj hne e l he hl
      have hj : j < 8 := hj
      have : j = 0 ∨ j = 1 ∨ j = 2 ∨ j = 3 ∨ j = 4 ∨ j = 6 ∨ j = 7 := by omega
      rcases this with rfl | rfl | rfl | rfl | rfl | rfl | rfl <;> cases Option.some.inj he <;>
        first | (cases hl; decide) | cases hl
    refine .cons (w := [ascii "in"]) (.plain _ (by unfold Spec.NotOption; decide)) ?_
    refine .cons (w := [ascii "-v"]) (.flag 3 _ (.short 118 (opt 3 118 _ rfl rfl (by omega) (by decide)) (by decide)) ?_) .nil
    intro e he; cases he; rfl
  · intro i hi e he
    have hi : i < 8 := hi
    have : i = 0 ∨ i = 1 ∨ i = 2 ∨ i = 3 ∨ i = 4 ∨ i = 5 ∨ i = 6 ∨ i = 7 := by omega
    rcases this with rfl | rfl | rfl | rfl | rfl | rfl | rfl | rfl <;> cases Option.some.inj he <;> decide

/-- Two options, the long name of one of which begins with that of the other. -/
def prefixGrid : List AEntry :=
  [⟨97, some (ascii "out"), 5, false, false, false, some (.one (.str none))⟩,
   ⟨98, some (ascii "output"), 5, false, false, false, some (.one (.str none))⟩,
   ⟨120, none, 5, false, false, false, some (.one (.str none))⟩, argvEnd, argvEnd]

/-- **C110 does not hold for a long name with which another one begins**: it is always rejected as ambiguous, although it is
written in full. -/
theorem C110_prefix_violated :
    argvRun prefixGrid [ascii "prog", ascii "--out=x"] = ⟨false, prefixGrid, [ascii "prog", ascii "--out"], 0⟩ ∧
    argvProcess argvCfg 3 prefixGrid [ascii "prog", ascii "--out=x"] [] 0 = ok ⟨false, prefixGrid, [ascii "prog", ascii "--out"], 0⟩ := by
  decide +kernel

/-- **C110 does not hold for several options in one word with `=`**: all of them get the text, not only the last one; and
afterwards `argv_copy_args` does not show it. -/
theorem C110_cluster_violated :
    (argvRun prefixGrid [ascii "prog", ascii "-ax=t"]).noError = true ∧
    ((argvRun prefixGrid [ascii "prog", ascii "-ax=t"]).grid.map AEntry.var).take 3 =
      [some (.one (.str (some (ascii "t")))), some (.one (.str none)), some (.one (.str (some (ascii "t"))))] ∧
    argvCopyArgs (argvRun prefixGrid [ascii "prog", ascii "-ax=t"]).argv 80 ≠ argvCopyArgs [ascii "prog", ascii "-ax=t"] 80 := by
  decide +kernel

end Wdns
