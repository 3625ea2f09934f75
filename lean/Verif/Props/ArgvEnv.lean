import Verif.Props.ArgvAccept
import Verif.Props.ArgvCopy

/-!
# Properties of command lines: the environment, the array, and what is asked afterwards — C110, C112, C113
-/

namespace Wdns
open Outcome

/-! ### The environment — C112 -/

theorem reverse_takeWhile {p : UInt8 → Bool} (dir base : List UInt8) (c : UInt8) (hc : p c = false) (hb : ∀ x ∈ base, p x = true) :
    ((dir ++ c :: base).reverse.takeWhile p).reverse = base := by
  rw [List.reverse_append, List.reverse_cons, List.append_assoc, List.takeWhile_append_of_pos (by intro x hx; exact hb x (List.mem_reverse.mp hx)),
    List.singleton_append, List.takeWhile_cons_of_neg (by simp [hc])]
  simp

/-- **C112.** The program's name is what stands behind the last slash, or all if there is none (up to 256 characters). -/
theorem C112_name (dir base : List UInt8) (h : (47 : UInt8) ∉ base) (hl : base.length ≤ 256) :
    programName (dir ++ 47 :: base) = base ∧ programName base = base := by
  have hb : ∀ x ∈ base, (decide (x ≠ 47)) = true := by
    intro x hx
    simp only [ne_eq, decide_eq_true_eq]
    rintro rfl
    exact h hx
  unfold programName
  constructor
  · rw [reverse_takeWhile dir base 47 (by decide) hb, List.take_of_length_le hl]
  · rw [takeWhile_id (by intro x hx; exact hb x (List.mem_reverse.mp hx)), List.reverse_reverse, List.take_of_length_le hl]

/-- **C112.** The words of the environment are those of the variable `ARGV_NAME`, for a program that is called by its name or
with any path. -/
theorem C112_variable (cfg : ACfg) (dir base : List UInt8) (h : (47 : UInt8) ∉ base) (hl : base.length ≤ 256)
    (argv0 : List UInt8) (h0 : argv0 = base ∨ argv0 = dir ++ 47 :: base) {ws : List (List UInt8)} :
    envArgs cfg argv0 = ws ↔
      match cfg.getenv (ascii "ARGV_" ++ base.map fun c => if 97 ≤ c.toNat ∧ c.toNat ≤ 122 then c - 32 else c) with
      | none => ws = []
      | some v => Spec.Words v ws := by
  have hn : programName argv0 = base := by
    rcases h0 with rfl | rfl
    · exact (C112_name dir _ h hl).2
    · exact (C112_name dir _ h hl).1
  have hup : ∀ c : UInt8, UInt8.ofNat (asciiToupper c.toNat) = if 97 ≤ c.toNat ∧ c.toNat ≤ 122 then c - 32 else c := by
    have : ∀ n < 256, UInt8.ofNat (asciiToupper (UInt8.ofNat n).toNat) =
        if 97 ≤ (UInt8.ofNat n).toNat ∧ (UInt8.ofNat n).toNat ≤ 122 then UInt8.ofNat n - 32 else UInt8.ofNat n := by decide +kernel
    intro c
    have h1 := this c.toNat c.toNat_lt
    simpa using h1
  unfold envArgs
  rw [hn, show (fun c : UInt8 => UInt8.ofNat (asciiToupper c.toNat)) = fun c => if 97 ≤ c.toNat ∧ c.toNat ≤ 122 then c - 32 else c from funext hup]
  cases cfg.getenv (ascii "ARGV_" ++ base.map fun c => if 97 ≤ c.toNat ∧ c.toNat ≤ 122 then c - 32 else c) with
  | none => exact eq_comm
  | some v => exact C112_words v ws

theorem doList_append {cfg : ACfg} {fileK : List UInt8 → AState → Outcome AState} : ∀ (as bs : List (List UInt8)) (s : AState),
    ascii "--" ∉ as → doList cfg fileK (as ++ bs) false s = doList cfg fileK as false s >>= fun r1 =>
      doList cfg fileK bs false r1.1 >>= fun r2 => ok (r2.1, r1.2 ++ r2.2)
  | [], bs, s, _ => by
    rw [doList, ok_bind, List.nil_append]
    cases doList cfg fileK bs false s <;> rfl
  | a :: as, bs, s, h => by
    have ha : a ≠ ascii "--" := fun he => h (by simp [he])
    have ih := fun s => doList_append (cfg := cfg) (fileK := fileK) as bs s (fun hm => h (by simp [hm]))
    rw [List.cons_append, doList, doList]
    have n1 : ¬ (a = ascii "--" ∧ false = true ∧ cfg.lastToggle = true) := fun h => ha h.1
    have n2 : ¬ (a = ascii "--" ∧ (!false) = true) := fun h => ha h.1
    simp only [if_neg n1, if_neg n2]
    split
    · simp only [ih]
      cases doLong cfg fileK a s with
      | ok s1 =>
        simp only [ok_bind]
        cases doList cfg fileK as false s1 with
        | ok r1 =>
          simp only [ok_bind]
          cases doList cfg fileK bs false r1.1 <;> rfl
        | _ => rfl
      | _ => rfl
    · split
      · simp only [ih]
        cases doShort cfg a s with
        | ok s1 =>
          simp only [ok_bind]
          cases doList cfg fileK as false s1 with
          | ok r1 =>
            simp only [ok_bind]
            cases doList cfg fileK bs false r1.1 <;> rfl
          | _ => rfl
        | _ => rfl
      · simp only [ih]
        cases doValue cfg fileK a s with
        | ok s1 =>
          simp only [ok_bind]
          cases doList cfg fileK as false s1 with
          | ok r1 =>
            simp only [ok_bind]
            cases doList cfg fileK bs false r1.1 <;> rfl
          | _ => rfl
        | _ => rfl

/-- What is left out of a result: the arguments as they are left. -/
def Spec.sameEffect (a b : Outcome AResult) : Prop :=
  (a >>= fun r => ok (r.noError, r.grid, r.opens)) = (b >>= fun r => ok (r.noError, r.grid, r.opens))

/-- **C112.** The words of the environment count as if they stood in front of the arguments (or behind them, as it is set),
if no `--` comes before the end of the first of the two lists: for every command line and every value of the variable.
`plain` is a name for which there is no variable. -/
theorem C112_env (cfg : ACfg) (fuel : Nat) (g : List AEntry) (argv0 plain : List UInt8) (args : List (List UInt8)) (stdin : List UInt8)
    (fds : Nat) (hp : envArgs cfg plain = []) (hon : cfg.processEnv = true) :
    (cfg.envAfter = false → ascii "--" ∉ envArgs cfg argv0 →
      Spec.sameEffect (argvProcess cfg fuel g (argv0 :: args) stdin fds) (argvProcess cfg fuel g (plain :: (envArgs cfg argv0 ++ args)) stdin fds)) ∧
    (cfg.envAfter = true → ascii "--" ∉ args →
      Spec.sameEffect (argvProcess cfg fuel g (argv0 :: args) stdin fds) (argvProcess cfg fuel g (plain :: (args ++ envArgs cfg argv0)) stdin fds)) := by
  have d0 : ∀ fk s, doList cfg fk [] false s = ok (s, []) := by intro fk s; rw [doList]
  have e0 : ∀ b : Bool, (if b then ([] : List (List UInt8)) else []) = [] := by intro b; cases b <;> rfl
  constructor
  · intro hb hn
    unfold Spec.sameEffect argvProcess
    dsimp only
    cases preprocess g with
    | ok r =>
      simp only [ok_bind]
      cases r with
      | none => rfl
      | some g0 =>
        dsimp only
        rw [hp]
        unfold processLists
        dsimp only
        rw [e0, e0, hon, hb]
        simp only [Bool.not_false, Bool.and_true, if_true, Bool.and_false, Bool.false_eq_true, if_false, d0, ok_bind,
          doList_append _ _ _ hn]
        rw [show args.length + 1 + (envArgs cfg argv0).length = (envArgs cfg argv0 ++ args).length + 1 + ([] : List (List UInt8)).length by
          simp; omega]
        cases doList cfg (fileArgs cfg fuel) (envArgs cfg argv0) false
          ⟨g0, [], (envArgs cfg argv0 ++ args).length + 1 + ([] : List (List UInt8)).length, 0, true, stdin, fds, 0⟩ with
        | ok r1 =>
          simp only [ok_bind]
          cases doList cfg (fileArgs cfg fuel) args false r1.1 with
          | ok r2 =>
            simp only [ok_bind]
            cases checkMand r2.1.grid with
            | ok m =>
              simp only [ok_bind]
              cases checkXor r2.1.grid (r2.1.grid.length + 1) 0 <;> rfl
            | _ => rfl
          | _ => rfl
        | _ => rfl
    | _ => rfl
  · intro hb hn
    unfold Spec.sameEffect argvProcess
    dsimp only
    cases preprocess g with
    | ok r =>
      simp only [ok_bind]
      cases r with
      | none => rfl
      | some g0 =>
        dsimp only
        rw [hp]
        unfold processLists
        dsimp only
        rw [e0, e0, hon, hb]
        simp only [Bool.not_true, Bool.and_true, if_true, Bool.and_false, Bool.false_eq_true, if_false, d0, ok_bind,
          doList_append _ _ _ hn]
        rw [show args.length + 1 + (envArgs cfg argv0).length = (args ++ envArgs cfg argv0).length + 1 + ([] : List (List UInt8)).length by
          simp; omega]
        cases doList cfg (fileArgs cfg fuel) args false
          ⟨g0, [], (args ++ envArgs cfg argv0).length + 1 + ([] : List (List UInt8)).length, 0, true, stdin, fds, 0⟩ with
        | ok r1 =>
          simp only [ok_bind]
          cases doList cfg (fileArgs cfg fuel) (envArgs cfg argv0) false r1.1 with
          | ok r2 =>
            simp only [ok_bind]
            cases checkMand r2.1.grid with
            | ok m =>
              simp only [ok_bind]
              cases checkXor r2.1.grid (r2.1.grid.length + 1) 0 <;> rfl
            | _ => rfl
          | _ => rfl
        | _ => rfl
    | _ => rfl

/-! ### Which arrays are accepted — C113 -/

/-- The entry takes arguments by position, any number of them. -/
def Spec.TakesMany (e : AEntry) : Prop := e.array = true ∧ (e.short = 254 ∨ e.short = 253)

/-- The entry separates alternatives. -/
def Spec.Separates (e : AEntry) : Prop := e.short = 252 ∨ e.short = 251

/-- The array describes a command line: arrays have values, every entry has a variable, separators stand between two entries,
nothing by position follows an entry that takes any number of them, and nothing mandatory follows something optional. -/
structure Spec.ArrayOk (g : List AEntry) : Prop where
  values : ∀ i < lastIdx g, ∀ e, g[i]? = some e → e.array = true → hasArg e.ty = true
  variables : ∀ i < lastIdx g, ∀ e, g[i]? = some e → ¬ Spec.Separates e → e.var ≠ none
  separators : ∀ i < lastIdx g, ∀ e, g[i]? = some e → Spec.Separates e → 1 ≤ i ∧ i + 1 < lastIdx g ∧
    ∀ e', g[i - 1]? = some e' → ¬ Spec.Separates e'
  positions : ∀ i j : Nat, i < j → j < lastIdx g → ∀ e e', g[i]? = some e → g[j]? = some e' →
    (e'.short = 254 → ¬ Spec.TakesMany e ∧ e.short ≠ 253) ∧ (e'.short = 253 → ¬ Spec.TakesMany e)

/-- The conditions on the rest of the entries. -/
structure PreOk (n i : Nat) (prev : Option AEntry) (b1 b2 : Bool) (es : List AEntry) : Prop where
  values : ∀ e ∈ es, e.array = true → hasArg e.ty = true
  variables : ∀ e ∈ es, ¬ Spec.Separates e → e.var ≠ none
  separators : ∀ k e, es[k]? = some e → Spec.Separates e → 1 ≤ i + k ∧ i + k + 1 < n
  first : ∀ e, es[0]? = some e → Spec.Separates e → ∀ p, prev = some p → ¬ Spec.Separates p
  adjacent : ∀ k e e', es[k]? = some e → es[k + 1]? = some e' → Spec.Separates e' → ¬ Spec.Separates e
  open1 : ∀ e ∈ es, e.short = 254 ∨ e.short = 253 → b1 = false
  open2 : ∀ e ∈ es, e.short = 254 → b2 = false
  positions : ∀ k l : Nat, k < l → ∀ e e' : AEntry, es[k]? = some e → es[l]? = some e' →
    (e'.short = 254 → ¬ Spec.TakesMany e ∧ e.short ≠ 253) ∧ (e'.short = 253 → ¬ Spec.TakesMany e)

theorem isOr_iff (e : AEntry) : isOr e = true ↔ Spec.Separates e := by
  unfold isOr Spec.Separates argvOr argvXor
  simp

theorem preLoop_iff {n : Nat} : ∀ {es : List AEntry} {i : Nat} {prev : Option AEntry} {b1 b2 : Bool} {o : Option (List AEntry)},
    preLoop n es i prev b1 b2 = ok o → (o.isSome = true ↔ PreOk n i prev b1 b2 es)
  | [], i, prev, b1, b2, o, h => by
    rw [preLoop] at h
    cases h
    simp only [Option.isSome_some, true_iff]
    exact ⟨by simp, by simp, by simp, by simp, by simp, by simp, by simp, by simp⟩
  | e :: es, i, prev, b1, b2, o, h => by
    rw [preLoop] at h
    split at h
    · rename_i hc
      cases h
      simp only [Option.isSome_none, Bool.false_eq_true, false_iff]
      intro H
      rcases hc with ⟨hs, h1 | h1⟩
      · rw [H.open1 e (by simp) (.inl hs)] at h1; cases h1
      · rw [H.open2 e (by simp) hs] at h1; cases h1
    rename_i hc1
    split at h
    · rename_i hc
      cases h
      simp only [Option.isSome_none, Bool.false_eq_true, false_iff]
      intro H
      rw [H.open1 e (by simp) (.inr hc.1)] at hc
      cases hc.2
    rename_i hc2
    split at h
    · rename_i hc
      cases h
      simp only [Option.isSome_none, Bool.false_eq_true, false_iff]
      intro H
      have := H.values e (by simp) hc.1
      rw [this] at hc
      cases hc.2
    rename_i hc3
    split at h
    · cases h
    rename_i hc4
    split at h
    · rename_i hc
      cases h
      simp only [Option.isSome_none, Bool.false_eq_true, false_iff]
      intro H
      refine H.variables e (by simp) ?_ hc.1
      rw [← isOr_iff]
      simpa using hc.2
    rename_i hc5
    split at h
    · rename_i hc
      cases h
      simp only [Option.isSome_none, Bool.false_eq_true, false_iff]
      intro H
      have := H.separators 0 e (by simp) ((isOr_iff e).mp hc.1)
      omega
    rename_i hc6
    split at h
    · rename_i hc
      cases h
      simp only [Option.isSome_none, Bool.false_eq_true, false_iff]
      intro H
      cases prev with
      | none => simp at hc
      | some p => exact H.first e (by simp) ((isOr_iff e).mp hc.1) p rfl ((isOr_iff p).mp (by simpa using hc.2))
    rename_i hc7
    rw [bind_eq_ok] at h
    obtain ⟨r, hr, h⟩ := h
    cases h
    have ih := preLoop_iff hr
    rw [Option.isSome_map, ih]
    have hmany : (e.array && (decide (e.short = argvMand) || decide (e.short = argvMaybe))) = true ↔ Spec.TakesMany e := by
      unfold Spec.TakesMany argvMand argvMaybe
      simp
    constructor
    · intro H
      refine ⟨?_, ?_, ?_, ?_, ?_, ?_, ?_, ?_⟩
      · intro x hx ha
        rcases List.mem_cons.mp hx with rfl | hx
        · cases hh : hasArg x.ty with
          | true => rfl
          | false => exact absurd ⟨ha, by simp [hh]⟩ hc3
        · exact H.values x hx ha
      · intro x hx hs
        rcases List.mem_cons.mp hx with rfl | hx
        · intro hv
          refine hc5 ⟨hv, ?_⟩
          rw [← isOr_iff] at hs
          simpa using hs
        · exact H.variables x hx hs
      · intro k x hx hs
        cases k with
        | zero =>
          cases Option.some.inj hx
          rw [← isOr_iff] at hs
          have : ¬ (i = 0 ∨ i + 1 ≥ n) := fun hh => hc6 ⟨hs, hh⟩
          omega
        | succ k =>
          have := H.separators k x (by simpa using hx) hs
          omega
      · intro x hx hs p hp hps
        cases Option.some.inj hx
        subst hp
        exact hc7 ⟨(isOr_iff e).mpr hs, by simpa using (isOr_iff p).mpr hps⟩
      · intro k x y hx hy hs
        cases k with
        | zero =>
          cases Option.some.inj hx
          exact H.first y (by simpa using hy) hs e rfl
        | succ k => exact H.adjacent k x y (by simpa using hx) (by simpa using hy) hs
      · intro x hx hs
        rcases List.mem_cons.mp hx with rfl | hx
        · cases hb : b1 with
          | false => rfl
          | true =>
            rcases hs with hs | hs
            · exact absurd ⟨hs, .inl hb⟩ hc1
            · exact absurd ⟨hs, hb⟩ hc2
        · have := H.open1 x hx hs
          simp only [Bool.or_eq_false_iff] at this
          exact this.1
      · intro x hx hs
        rcases List.mem_cons.mp hx with rfl | hx
        · cases hb : b2 with
          | false => rfl
          | true => exact absurd ⟨hs, .inr hb⟩ hc1
        · have := H.open2 x hx hs
          simp only [Bool.or_eq_false_iff] at this
          exact this.1
      · intro k l hkl x y hx hy
        cases l with
        | zero => omega
        | succ l =>
          have hy' : es[l]? = some y := by simpa using hy
          have hym := List.mem_of_getElem? hy'
          cases k with
          | zero =>
            cases Option.some.inj hx
            constructor
            · intro hs
              have h1 := H.open1 y hym (.inl hs)
              have h2 := H.open2 y hym hs
              simp only [Bool.or_eq_false_iff] at h1 h2
              refine ⟨?_, ?_⟩
              · rw [← hmany]
                simp [h1.2]
              · exact of_decide_eq_false h2.2
            · intro hs
              have h1 := H.open1 y hym (.inr hs)
              simp only [Bool.or_eq_false_iff] at h1
              rw [← hmany]
              simp [h1.2]
          | succ k => exact H.positions k l (by omega) x y (by simpa using hx) hy'
    · intro H
      refine ⟨?_, ?_, ?_, ?_, ?_, ?_, ?_, ?_⟩
      · exact fun x hx => H.values x (by simp [hx])
      · exact fun x hx => H.variables x (by simp [hx])
      · intro k x hx hs
        have := H.separators (k + 1) x (by simpa using hx) hs
        omega
      · intro x hx hs p hp
        cases hp
        exact H.adjacent 0 e x (by simp) (by simpa using hx) hs
      · intro k x y hx hy hs
        exact H.adjacent (k + 1) x y (by simpa using hx) (by simpa using hy) hs
      · intro x hx hs
        have h1 := H.open1 x (by simp [hx]) hs
        obtain ⟨k, hk⟩ := List.mem_iff_getElem?.mp hx
        have h2 := H.positions 0 (k + 1) (by omega) e x (by simp) (by simpa using hk)
        have h3 : ¬ Spec.TakesMany e := by
          rcases hs with hs | hs
          · exact (h2.1 hs).1
          · exact h2.2 hs
        rw [← hmany, Bool.not_eq_true] at h3
        rw [h1, h3]
        rfl
      · intro x hx hs
        have h1 := H.open2 x (by simp [hx]) hs
        obtain ⟨k, hk⟩ := List.mem_iff_getElem?.mp hx
        have h2 := H.positions 0 (k + 1) (by omega) e x (by simp) (by simpa using hk)
        have h3 := (h2.1 hs).2
        rw [h1, Bool.false_or]
        exact decide_eq_false h3
      · intro k l hkl x y hx hy
        exact H.positions (k + 1) (l + 1) (by omega) x y (by simpa using hx) (by simpa using hy)

theorem preOk_iff (g : List AEntry) : PreOk (lastIdx g) 0 none false false (g.take (lastIdx g)) ↔ Spec.ArrayOk g := by
  have get : ∀ {k : Nat} {e : AEntry}, (g.take (lastIdx g))[k]? = some e ↔ k < lastIdx g ∧ g[k]? = some e := by
    intro k e
    rw [List.getElem?_take]
    split
    · rename_i h; simp [h]
    · rename_i h; simp [h]
  have mem : ∀ {e : AEntry}, e ∈ g.take (lastIdx g) ↔ ∃ k < lastIdx g, g[k]? = some e := by
    intro e
    rw [List.mem_iff_getElem?]
    constructor
    · rintro ⟨k, hk⟩; exact ⟨k, get.mp hk⟩
    · rintro ⟨k, hk⟩; exact ⟨k, get.mpr hk⟩
  constructor
  · intro H
    refine ⟨?_, ?_, ?_, ?_⟩
    · exact fun i hi e he => H.values e (mem.mpr ⟨i, hi, he⟩)
    · exact fun i hi e he => H.variables e (mem.mpr ⟨i, hi, he⟩)
    · intro i hi e he hs
      have h1 := H.separators i e (get.mpr ⟨hi, he⟩) hs
      refine ⟨by omega, by omega, fun e' he' => ?_⟩
      have h2 := H.adjacent (i - 1) e' e (get.mpr ⟨by omega, he'⟩)
      rw [show i - 1 + 1 = i by omega] at h2
      exact h2 (get.mpr ⟨hi, he⟩) hs
    · intro i j hij hj e e' he he'
      exact H.positions i j hij e e' (get.mpr ⟨by omega, he⟩) (get.mpr ⟨hj, he'⟩)
  · intro H
    refine ⟨?_, ?_, ?_, ?_, ?_, ?_, ?_, ?_⟩
    · intro e he
      obtain ⟨k, hk, he⟩ := mem.mp he
      exact H.values k hk e he
    · intro e he
      obtain ⟨k, hk, he⟩ := mem.mp he
      exact H.variables k hk e he
    · intro k e he hs
      obtain ⟨hk, he⟩ := get.mp he
      have := H.separators k hk e he hs
      omega
    · intro e he hs p hp
      cases hp
    · intro k e e' he he' hs
      obtain ⟨hk, he⟩ := get.mp he
      obtain ⟨hk', he'⟩ := get.mp he'
      exact (H.separators (k + 1) hk' e' he' hs).2.2 e he
    · simp
    · simp
    · intro k l hkl e e' he he'
      obtain ⟨_, he⟩ := get.mp he
      obtain ⟨hl, he'⟩ := get.mp he'
      exact H.positions k l hkl hl e e' he he'

/-- **C113.** Exactly the arrays that describe a command line are accepted. -/
theorem C113_array {g : List AEntry} {o : Option (List AEntry)} (h : preprocess g = ok o) : o.isSome = true ↔ Spec.ArrayOk g := by
  unfold preprocess at h
  dsimp only at h
  change (if lastIdx g = g.length then ub else preLoop (lastIdx g) (g.take (lastIdx g)) 0 none false false >>= fun r =>
    ok (r.map (· ++ g.drop (lastIdx g)))) = ok o at h
  split at h
  · cases h
  · rw [bind_eq_ok] at h
    obtain ⟨r, hr, h⟩ := h
    cases h
    rw [Option.isSome_map, preLoop_iff hr, preOk_iff]

/-- **C113.** With any other array every command line is rejected, and nothing is changed. -/
theorem C113_array_rejected {cfg : ACfg} {fuel : Nat} {g : List AEntry} (hg : ¬ Spec.ArrayOk g) {argv : List (List UInt8)}
    {stdin : List UInt8} {fds : Nat} {r : AResult} (h : argvProcess cfg fuel g argv stdin fds = ok r) :
    r = ⟨false, g, argv, 0⟩ := by
  unfold argvProcess at h
  cases argv with
  | nil => cases h
  | cons a args =>
    dsimp only at h
    rw [bind_eq_ok] at h
    obtain ⟨o, ho, h⟩ := h
    cases o with
    | none => cases h; rfl
    | some g0 => exact absurd ((C113_array ho).mp rfl) hg

/-- The array of the examples describes a command line; one with a mandatory argument behind an optional one does not. -/
example : Spec.ArrayOk argvGrid ∧
    ¬ Spec.ArrayOk [⟨253, none, 5, false, false, false, some (.one (.str none))⟩, ⟨254, none, 5, false, false, false, some (.one (.str none))⟩, argvEnd] := by
  constructor
  · have hb : (match preprocess argvGrid with | .ok (some _) => true | _ => false) = true := by decide +kernel
    split at hb
    · rename_i x hx; exact (C113_array hx).mp rfl
    · cases hb
  · intro H
    exact ((H.positions 0 1 (by omega) (by decide) _ _ rfl rfl).1 rfl).2 rfl

/-! ### What is asked afterwards — C110 -/

/-- **C110.** After an accepted command line `argv_was_used` says of every option whether it has been given. -/
theorem C110_was_used {cfg : ACfg} {fuel : Nat} {g : List AEntry} {argv : List (List UInt8)} {stdin : List UInt8}
    {fds : Nat} {r : AResult} (h : argvProcess cfg fuel g argv stdin fds = ok r) (hn : r.noError = true) {i : Nat} {c : UInt8}
    (ho : Spec.OptionAt g i c) : ∃ b, argvWasUsed r.grid c = ok b ∧ (b = true ↔ Spec.Given r.grid i) := by
  have hc := C109_array h hn
  obtain ⟨g0, hpre⟩ := preprocess_some h hn
  have hl := (preprocess_core hpre).2.1
  have hs := ho.scan hc hl
  have hlen : r.grid.length = g.length := by simpa [coresOf] using congrArg List.length hc
  have hlt : i < r.grid.length := by have := ho.1; omega
  unfold argvWasUsed
  rw [hs, ok_bind]
  dsimp only
  rw [entryAt_lt hlt, ok_bind]
  refine ⟨_, rfl, ?_⟩
  unfold Spec.Given
  rw [List.getElem?_eq_getElem hlt]
  simp

/-- **C110.** An option that there is not has not been used. -/
theorem C110_not_used {g : List AEntry} (hl : lastIdx g < g.length) {c : UInt8} (h : ∀ j < lastIdx g, ∀ e, g[j]? = some e → e.short ≠ c) :
    argvWasUsed g c = ok false := by
  unfold argvWasUsed
  rw [scanGrid_absent 0 hl (by intro j hj e he; simpa using h j hj e he), ok_bind]

example : argvWasUsed (argvRun argvGrid [ascii "prog", ascii "-a", ascii "in"]).grid 97 = ok true ∧
    argvWasUsed (argvRun argvGrid [ascii "prog", ascii "-a", ascii "in"]).grid 98 = ok false ∧
    argvWasUsed (argvRun argvGrid [ascii "prog", ascii "-a", ascii "in"]).grid 99 = ok false := by decide +kernel

/-- The hypotheses of `C112_env` are met: a program with words in the environment. -/
example : envArgs { argvCfg with processEnv := true, getenv := fun n => if n = ascii "ARGV_PROG" then some (ascii "-a  in") else none }
      (ascii "/bin/prog") = [ascii "-a", ascii "in"] ∧
    envArgs { argvCfg with processEnv := true, getenv := fun n => if n = ascii "ARGV_PROG" then some (ascii "-a  in") else none }
      (ascii "other") = [] := by decide +kernel

end Wdns
