import Verif.Model.ArgvGlobal
import Verif.Props.ArgvEnv
import Verif.Props.ArgvSamples
import Verif.Props.Getenv
import Mathlib.Tactic.Ring

/-!
# Properties of command lines: the settings in the environment — C117, and names of options that are asked for — C118
-/

namespace Wdns
open Outcome

/-! ### Specification -/

/-- The words of a text that are separated by spaces, tabs, commas and colons. -/
inductive Spec.Parts : List UInt8 → List (List UInt8) → Prop
  | nil : Spec.Parts [] []
  | sep (c : UInt8) (v : List UInt8) (ws : List (List UInt8)) (hc : c ∈ ascii " \t,:") (h : Spec.Parts v ws) : Spec.Parts (c :: v) ws
  | word (w v : List UInt8) (ws : List (List UInt8)) (hw : w ≠ []) (hs : ∀ c ∈ w, c ∉ ascii " \t,:")
      (hv : ∀ c, v.head? = some c → c ∈ ascii " \t,:") (h : Spec.Parts v ws) : Spec.Parts (w ++ v) (w :: ws)

/-- The words that set something, and what they set. -/
def Spec.settings : List (String × (ASettings → ASettings)) :=
  [("close=disable", fun s => { s with closeEnable := false }), ("close=off", fun s => { s with closeEnable := false }),
   ("close=no", fun s => { s with closeEnable := false }), ("close=0", fun s => { s with closeEnable := false }),
   ("close=enable", fun s => { s with closeEnable := true }), ("close=on", fun s => { s with closeEnable := true }),
   ("close=yes", fun s => { s with closeEnable := true }), ("close=1", fun s => { s with closeEnable := true }),
   ("lasttog=disable", fun s => { s with lastToggle := false }), ("lasttog=off", fun s => { s with lastToggle := false }),
   ("lasttog=no", fun s => { s with lastToggle := false }), ("lasttog=0", fun s => { s with lastToggle := false }),
   ("lasttog=enable", fun s => { s with lastToggle := true }), ("lasttog=on", fun s => { s with lastToggle := true }),
   ("lasttog=yes", fun s => { s with lastToggle := true }), ("lasttog=1", fun s => { s with lastToggle := true }),
   ("env=none", fun s => { s with processEnv := false, envAfter := false }),
   ("env=before", fun s => { s with processEnv := true, envAfter := false }),
   ("env=after", fun s => { s with processEnv := true, envAfter := true }),
   ("error=none", fun s => { s with errorType := 0 }), ("error=short", fun s => { s with errorType := 1 }),
   ("error=long", fun s => { s with errorType := 2 }), ("error=see", fun s => { s with errorType := 4 }),
   ("error=shortrem", fun s => { s with errorType := 5 }), ("error=all", fun s => { s with errorType := 6 }),
   ("multi=reject", fun s => { s with multiAccept := false }), ("multi=accept", fun s => { s with multiAccept := true }),
   ("usage=short", fun s => { s with usageType := 1 }), ("usage=long", fun s => { s with usageType := 2 }),
   ("usage=shortrem", fun s => { s with usageType := 5 }), ("usage=all", fun s => { s with usageType := 6 })]

/-- What a word does to the settings: it is one of the list and sets what the list says, or it is not and nothing changes. -/
def Spec.Sets (w : List UInt8) (s s' : ASettings) : Prop :=
  (∃ x ∈ Spec.settings, w = ascii x.1 ∧ s' = x.2 s) ∨ (∀ x ∈ Spec.settings, w ≠ ascii x.1) ∧ s' = s

/-- What words do, one after the other. -/
inductive Spec.SetsAll : List (List UInt8) → ASettings → ASettings → Prop
  | nil (s : ASettings) : Spec.SetsAll [] s s
  | cons (w : List UInt8) (ws : List (List UInt8)) (s s1 s2 : ASettings) (h : Spec.Sets w s s1) (hs : Spec.SetsAll ws s1 s2) :
      Spec.SetsAll (w :: ws) s s2

/-! ### Proof -/

theorem prefix_split {p t : List UInt8} (h : p.isPrefixOf t = true) : t = p ++ t.drop p.length := by
  rw [List.isPrefixOf_iff_prefix] at h
  obtain ⟨r, rfl⟩ := h
  simp

theorem sets_mem {w : List UInt8} {s : ASettings} (x : String × (ASettings → ASettings)) (hx : x ∈ Spec.settings) (h : w = ascii x.1) :
    Spec.Sets w s (x.2 s) := .inl ⟨x, hx, h, rfl⟩

/-- The words in the list, without what they do. -/
theorem settings_names : Spec.settings.map (fun x => ascii x.1) =
    (["disable", "off", "no", "0", "enable", "on", "yes", "1"].map fun w => ascii "close=" ++ ascii w) ++
    (["disable", "off", "no", "0", "enable", "on", "yes", "1"].map fun w => ascii "lasttog=" ++ ascii w) ++
    (["none", "before", "after"].map fun w => ascii "env=" ++ ascii w) ++
    (["none", "short", "long", "see", "shortrem", "all"].map fun w => ascii "error=" ++ ascii w) ++
    (["reject", "accept"].map fun w => ascii "multi=" ++ ascii w) ++
    (["short", "long", "shortrem", "all"].map fun w => ascii "usage=" ++ ascii w) := by decide +kernel


theorem onOff_some {w : List UInt8} {b : Bool} (h : onOff w = some b) :
    ∃ a ∈ ["disable", "off", "no", "0", "enable", "on", "yes", "1"], w = ascii a := by
  unfold onOff at h
  split at h
  · rename_i hw
    rcases hw with h | h | h | h
    exacts [⟨_, by simp, h⟩, ⟨_, by simp, h⟩, ⟨_, by simp, h⟩, ⟨_, by simp, h⟩]
  · split at h
    · rename_i hw
      rcases hw with h | h | h | h
      exacts [⟨_, by simp, h⟩, ⟨_, by simp, h⟩, ⟨_, by simp, h⟩, ⟨_, by simp, h⟩]
    · cases h

theorem applyToken_other {w : List UInt8} (h : ∀ x ∈ Spec.settings, w ≠ ascii x.1) (s : ASettings) : applyToken s w = s := by
  have hn : w ∉ Spec.settings.map (fun x => ascii x.1) := by
    intro hm
    obtain ⟨x, hx, he⟩ := List.mem_map.mp hm
    exact h x hx he.symm
  rw [settings_names] at hn
  simp only [List.mem_append, not_or] at hn
  obtain ⟨⟨⟨⟨⟨h1, h2⟩, h3⟩, h4⟩, h5⟩, h6⟩ := hn
  have no : ∀ {pre : List UInt8} {l : List String} (k : Nat), pre.length = k → w ∉ l.map (fun a => pre ++ ascii a) → pre.isPrefixOf w = true →
      ∀ a ∈ l, w.drop k ≠ ascii a := by
    intro pre l k hk hl hp a ha he
    have := prefix_split hp
    rw [hk, he] at this
    exact hl (List.mem_map.mpr ⟨a, ha, this.symm⟩)
  unfold applyToken
  by_cases hp : (ascii "close=").isPrefixOf w = true
  · have hno := no 6 rfl h1 hp
    rw [if_pos hp]
    cases hb : onOff (w.drop 6) with
    | none => rfl
    | some b =>
      obtain ⟨a, ha, he⟩ := onOff_some hb
      exact absurd he (hno a ha)
  rw [if_neg hp]
  clear hp
  by_cases hp : (ascii "lasttog=").isPrefixOf w = true
  · have hno := no 8 rfl h2 hp
    rw [if_pos hp]
    cases hb : onOff (w.drop 8) with
    | none => rfl
    | some b =>
      obtain ⟨a, ha, he⟩ := onOff_some hb
      exact absurd he (hno a ha)
  rw [if_neg hp]
  clear hp
  by_cases hp : (ascii "env=").isPrefixOf w = true
  · have hno := no 4 rfl h3 hp
    rw [if_pos hp]
    dsimp only
    rw [if_neg (hno _ (by simp)), if_neg (hno _ (by simp)), if_neg (hno _ (by simp))]
  rw [if_neg hp]
  clear hp
  by_cases hp : (ascii "error=").isPrefixOf w = true
  · have hno := no 6 rfl h4 hp
    rw [if_pos hp]
    dsimp only
    rw [if_neg (hno _ (by simp)), if_neg (hno _ (by simp)), if_neg (hno _ (by simp)), if_neg (hno _ (by simp)), if_neg (hno _ (by simp)), if_neg (hno _ (by simp))]
  rw [if_neg hp]
  clear hp
  by_cases hp : (ascii "multi=").isPrefixOf w = true
  · have hno := no 6 rfl h5 hp
    rw [if_pos hp]
    dsimp only
    rw [if_neg (hno _ (by simp)), if_neg (hno _ (by simp))]
  rw [if_neg hp]
  clear hp
  by_cases hp : (ascii "usage=").isPrefixOf w = true
  · have hno := no 6 rfl h6 hp
    rw [if_pos hp]
    dsimp only
    rw [if_neg (hno _ (by simp)), if_neg (hno _ (by simp)), if_neg (hno _ (by simp)), if_neg (hno _ (by simp))]
  rw [if_neg hp]

theorem applyToken_mem (s : ASettings) : ∀ x ∈ Spec.settings, applyToken s (ascii x.1) = x.2 s := by
  unfold Spec.settings
  repeat
    rw [List.forall_mem_cons]
    refine ⟨rfl, ?_⟩
  simp

/-- **C117.** A word does to the settings what the list says, and a word that is not in the list does nothing. -/
theorem C117_word (s : ASettings) (w : List UInt8) (s' : ASettings) : applyToken s w = s' ↔ Spec.Sets w s s' := by
  constructor
  · rintro rfl
    by_cases h : ∃ x ∈ Spec.settings, w = ascii x.1
    · obtain ⟨x, hx, rfl⟩ := h
      exact .inl ⟨x, hx, rfl, applyToken_mem s x hx⟩
    · have h' : ∀ x ∈ Spec.settings, w ≠ ascii x.1 := fun x hx he => h ⟨x, hx, he⟩
      exact .inr ⟨h', applyToken_other h' s⟩
  · rintro (⟨x, hx, rfl, rfl⟩ | ⟨h, rfl⟩)
    · exact applyToken_mem s x hx
    · exact applyToken_other h _

theorem settingSep_iff (c : UInt8) : settingSep c = true ↔ c ∈ ascii " \t,:" := by
  have e : ascii " \t,:" = [32, 9, 44, 58] := by decide
  rw [e]
  simp [settingSep, or_assoc]

theorem tokenLoop_word (w : List UInt8) (h : ∀ c ∈ w, c ∉ ascii " \t,:") : ∀ (v cur : List UInt8) (s : ASettings),
    tokenLoop (w ++ v) cur s = tokenLoop v (w.reverse ++ cur) s := by
  induction w with
  | nil => intro v cur s; rfl
  | cons c w ih =>
    intro v cur s
    have hc : ¬ settingSep c = true := by rw [settingSep_iff]; exact h c (by simp)
    rw [List.cons_append, tokenLoop, if_neg hc, ih (fun c hc => h c (by simp [hc]))]
    simp

theorem tokenLoop_parts {v : List UInt8} {ws : List (List UInt8)} (h : Spec.Parts v ws) : ∀ s, tokenLoop v [] s = ws.foldl applyToken s := by
  induction h with
  | nil => intro s; rfl
  | sep c v ws hc h ih =>
    intro s
    rw [tokenLoop, if_pos ((settingSep_iff c).mpr hc), if_pos rfl, ih]
  | word w v ws hw hs hv h ih =>
    intro s
    rw [tokenLoop_word w hs, List.append_nil, List.foldl_cons, ← ih]
    have hr : w.reverse ≠ [] := by simpa using hw
    cases v with
    | nil => simp only [tokenLoop, if_neg hr, List.reverse_reverse, if_true]
    | cons c v =>
      have hc := (settingSep_iff c).mpr (hv c rfl)
      simp only [tokenLoop, if_neg hr, List.reverse_reverse, if_pos hc, if_true]

theorem parts_all (v : List UInt8) : ∃ ws, Spec.Parts v ws := by
  suffices H : ∀ n, ∀ v : List UInt8, v.length ≤ n → ∃ ws, Spec.Parts v ws from H v.length v (Nat.le_refl _)
  intro n
  induction n with
  | zero => intro v hv; have hv : v = [] := List.length_eq_zero_iff.mp (by omega)
            exact ⟨[], by rw [hv]; exact .nil⟩
  | succ n ih =>
    intro v hv
    cases v with
    | nil => exact ⟨[], .nil⟩
    | cons c v =>
      by_cases hc : c ∈ ascii " \t,:"
      · obtain ⟨ws, h⟩ := ih v (by simp at hv; omega)
        exact ⟨ws, .sep c v ws hc h⟩
      · obtain ⟨ws, h⟩ := ih (v.dropWhile (fun c => decide (c ∉ ascii " \t,:"))) (by
          have := (List.dropWhile_sublist (l := v) (fun c => decide (c ∉ ascii " \t,:"))).length_le
          simp at hv; omega)
        refine ⟨(c :: v.takeWhile (fun c => decide (c ∉ ascii " \t,:"))) :: ws, ?_⟩
        have := Spec.Parts.word (c :: v.takeWhile (fun c => decide (c ∉ ascii " \t,:"))) _ ws (by simp) (by
          intro d hd
          rcases List.mem_cons.mp hd with rfl | hd
          · exact hc
          · simpa using takeWhile_mem hd) (by
          intro d hd
          have := List.head?_dropWhile_not (fun c => decide (c ∉ ascii " \t,:")) v
          rw [hd] at this
          simpa using this) h
        rwa [List.cons_append, List.takeWhile_append_dropWhile] at this

theorem setsAll_iff : ∀ (ws : List (List UInt8)) (s s' : ASettings), ws.foldl applyToken s = s' ↔ Spec.SetsAll ws s s' := by
  intro ws
  induction ws with
  | nil =>
    intro s s'
    constructor
    · rintro rfl; exact .nil s
    · rintro ⟨⟩; rfl
  | cons w ws ih =>
    intro s s'
    rw [List.foldl_cons, ih]
    constructor
    · intro h
      exact .cons w ws s _ s' ((C117_word s w _).mp rfl) h
    · intro h
      cases h with
      | cons _ _ _ s1 _ h hs =>
        rw [(C117_word s w s1).mpr h]
        exact hs

/-- The surroundings `c` are those of `cfg` with the settings `s`. -/
structure Spec.Configured (c cfg : ACfg) (s : ASettings) : Prop where
  close : c.closeEnable = s.closeEnable
  toggle : c.lastToggle = s.lastToggle
  multi : c.multiAccept = s.multiAccept
  env : c.processEnv = s.processEnv
  after : c.envAfter = s.envAfter
  reals : c.readReal = cfg.readReal
  files : c.files = cfg.files
  getenv : c.getenv = cfg.getenv

theorem configured_cfgOf (cfg : ACfg) (s : ASettings) : Spec.Configured (cfgOf cfg s) cfg s :=
  ⟨rfl, rfl, rfl, rfl, rfl, rfl, rfl, rfl⟩

theorem Spec.Configured.unique {c cfg : ACfg} {s : ASettings} (h : Spec.Configured c cfg s) : c = cfgOf cfg s := by
  have g := configured_cfgOf cfg s
  cases c
  cases hh : cfgOf cfg s
  rw [hh] at g
  cases g; cases h
  simp_all

/-- **C117.** The first command line is read with the settings after all words of `GLOBAL_ARGV`, in order, and these are kept.
Every text has its words, so this says what every text does. -/
theorem C117_first (cfg : ACfg) {v : List UInt8} (hv : cfg.getenv (ascii "GLOBAL_ARGV") = some v) (s : ASettings) :
    (∃ ws, Spec.Parts v ws) ∧ ∀ ws, Spec.Parts v ws → ∃ s', Spec.SetsAll ws s s' ∧
      ∀ c, Spec.Configured c cfg s' → ∀ fuel grid argv stdin fds, argvProcessGlobal cfg ⟨false, s⟩ fuel grid argv stdin fds =
        argvProcess c fuel grid argv stdin fds >>= fun r => ok (⟨true, s'⟩, r) := by
  refine ⟨parts_all v, fun ws hp => ⟨ws.foldl applyToken s, (setsAll_iff ws s _).mp rfl, ?_⟩⟩
  intro c hc fuel grid argv stdin fds
  rw [hc.unique]
  unfold argvProcessGlobal processEnvVar
  simp only [Bool.false_eq_true, if_false, hv, tokenLoop_parts hp]

/-- **C117.** Without the variable, and for every command line but the first, the settings are those of the program. -/
theorem C117_else (cfg : ACfg) (g : AGlobal) (h : g.done = true ∨ cfg.getenv (ascii "GLOBAL_ARGV") = none) (fuel : Nat) (grid : List AEntry)
    (argv : List (List UInt8)) (stdin : List UInt8) (fds : Nat) (c : ACfg) (hc : Spec.Configured c cfg g.settings) :
    argvProcessGlobal cfg g fuel grid argv stdin fds =
      argvProcess c fuel grid argv stdin fds >>= fun r => ok (⟨true, g.settings⟩, r) := by
  rw [hc.unique]
  obtain ⟨d, s⟩ := g
  unfold argvProcessGlobal processEnvVar
  rcases h with h | h
  · have h : d = true := h
    subst h
    simp only [if_true]
  · cases d <;> simp [h]

/-! ### Names of options — C118 -/

/-- The addresses of the names in the array are different (and none of them is that of another name). -/
def Spec.Apart (addr : Nat → Nat) : Prop := ∀ i j, addr i = addr j → i = j

theorem longUsed_at (addr : Nat → Nat) (ha : Spec.Apart addr) : ∀ (g : List AEntry) (k i : Nat) (e : AEntry), g[i]? = some e →
    (∀ j < i, ∀ e', g[j]? = some e' → e'.short ≠ argvLast) → e.short ≠ argvLast → argvLongWasUsed addr g (addr (k + i)) k = ok e.used := by
  intro g
  induction g with
  | nil => intro k i e h; simp at h
  | cons x g ih =>
    intro k i e h hl he
    rw [argvLongWasUsed]
    cases i with
    | zero =>
      simp at h
      subst h
      simp [he]
    | succ i =>
      have hx := hl 0 (by omega) x rfl
      rw [if_neg hx, if_neg (by intro h; have := ha _ _ h; omega)]
      rw [show k + (i + 1) = k + 1 + i by omega]
      exact ih (k + 1) i e (by simpa using h) (fun j hj e' he' => hl (j + 1) (by omega) e' (by simpa using he')) he

/-- **C118.** Asked with the address of the name that is in the array, the answer is whether the option was used. -/
theorem C118_address_partial {addr : Nat → Nat} (ha : Spec.Apart addr) {g : List AEntry} {i : Nat} {e : AEntry} (h : g[i]? = some e)
    (hl : ∀ j ≤ i, ∀ e', g[j]? = some e' → e'.short ≠ argvLast) : argvLongWasUsed addr g (addr i) 0 = ok e.used := by
  have := longUsed_at addr ha g 0 i e h (fun j hj => hl j (by omega)) (hl i (Nat.le_refl _) e h)
  rwa [Nat.zero_add] at this

/-- **C118 is false:** asked with the same name at another address, the answer is no, for every array and whatever was used. -/
theorem C118_name_violated {addr : Nat → Nat} {p : Nat} (hp : ∀ i, addr i ≠ p) : ∀ (g : List AEntry) (k : Nat), (∃ e ∈ g, e.short = argvLast) →
    argvLongWasUsed addr g p k = ok false := by
  intro g
  induction g with
  | nil => intro k h; simp at h
  | cons x g ih =>
    intro k h
    rw [argvLongWasUsed]
    by_cases hx : x.short = argvLast
    · rw [if_pos hx]
    · rw [if_neg hx, if_neg (hp k)]
      apply ih
      obtain ⟨e, he, hs⟩ := h
      rcases List.mem_cons.mp he with rfl | he
      · exact absurd hs hx
      · exact ⟨e, he, hs⟩

/-! ### The theorems apply -/

example : Spec.Parts (ascii "close=off,, env=after") [ascii "close=off", ascii "env=after"] := by
  have h1 := Spec.Parts.word (ascii "env=after") [] [] (by decide) (by decide) (by decide) .nil
  have h2 := Spec.Parts.sep 44 _ _ (by decide) (Spec.Parts.sep 44 _ _ (by decide) (Spec.Parts.sep 32 _ _ (by decide) h1))
  exact Spec.Parts.word (ascii "close=off") _ _ (by decide) (by decide) (by decide) h2
example : tokenLoop (ascii "close=off,, env=after") [] initialSettings = ⟨false, false, true, true, true, 2, 2⟩ := by decide +kernel
example : tokenLoop (ascii "close=never:CLOSE=off close=offx") [] initialSettings = initialSettings := by decide +kernel
example : Spec.Sets (ascii "multi=reject") initialSettings ⟨true, false, false, true, false, 2, 2⟩ :=
  (C117_word _ _ _).mp (by decide +kernel)
example : Spec.Apart (fun i => 1000 + i) ∧ ∀ i, (fun i => 1000 + i) i ≠ 7 := ⟨fun i j h => by simpa using h, fun i => by simp; omega⟩
end Wdns
