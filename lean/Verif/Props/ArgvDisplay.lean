import Verif.Props.ArgvUsage
import Verif.Props.ArgvShow

/-!
# C122: the display of the variables, and the words `--usage`, `--help`, `--version`, `--argv-display`
-/

namespace Wdns
open Outcome Spec

namespace Spec

/-- What `--argv-display` shows of a value: its text, cut at 255 octets. -/
inductive InDisplay (real : Bool → Nat → List UInt8) : Nat → AVal → List UInt8 → Prop
  | value {ty v t} : IsOf ty v → Displayed real ty v t → (ty = 19 → ∀ n, v = .num n → n < 2 ^ 63) → InDisplay real ty v (t.take 255)
  | text {ty v t} : AsIs ty v t → InDisplay real ty v (t.take 255)

/-- What it shows of a variable: the value; `no entries` or all entries of an array with commas between them. -/
inductive VarText (real : Bool → Nat → List UInt8) (e : UEntry) : List UInt8 → Prop
  | one {v t} : e.array = false → e.var = some (.one v) → InDisplay real e.ty v t → VarText real e t
  | empty : e.array = true → e.var = some (.many []) → VarText real e (ascii "no entries")
  | many {vs ts} : e.array = true → vs ≠ [] → e.var = some (.many vs) → List.Forall₂ (InDisplay real e.ty) vs ts →
      VarText real e (List.intercalate (ascii ",") ts)

/-- The option, 18 columns wide. -/
def shownOption (e : UEntry) : List UInt8 :=
  if e.short = 0 then column 18 (match e.long with | none => [] | some n => ascii "--" ++ n.take 31) else lineStart e

/-- The word for each type, by the number the header gives it (libmy/argv.h:153-174), as in the table of libmy/argv_loc.h:165-211. -/
inductive TypeWord : Nat → String → Prop
  | bool : TypeWord 1 "flag"
  | boolNeg : TypeWord 2 "negative flag"
  | boolArg : TypeWord 3 "flag with arg"
  | char : TypeWord 4 "character"
  | charP : TypeWord 5 "string"
  | short : TypeWord 6 "short integer"
  | uShort : TypeWord 7 "unsigned short integer"
  | int : TypeWord 8 "integer"
  | uInt : TypeWord 9 "unsigned integer"
  | long : TypeWord 10 "long integer"
  | uLong : TypeWord 11 "unsigned long"
  | float : TypeWord 12 "floating point"
  | double : TypeWord 13 "double floating point"
  | bin : TypeWord 14 "binary"
  | oct : TypeWord 15 "octal"
  | hex : TypeWord 16 "hexadecimal"
  | incr : TypeWord 17 "increment"
  | size : TypeWord 18 "long size"
  | uSize : TypeWord 19 "unsigned long size"
  | boolInt : TypeWord 20 "integer boolean"
  | boolIntNeg : TypeWord 21 "integer boolean"
  | boolIntArg : TypeWord 22 "integer boolean"

/-- The line of an entry: the option, its type in column 19, its value in column 35. -/
def DisplayLine (real : Bool → Nat → List UInt8) (e : UEntry) (l : List UInt8) : Prop :=
  ∃ name t, TypeWord e.ty name ∧ VarText real e t ∧
    l = column 35 (shownOption e ++ ascii " " ++ (ascii name).take (33 - (shownOption e).length) ++ (if e.array then ascii " array" else [])) ++
      t ++ [10]

end Spec

theorem typeWord_get {n : Nat} {s : String} (h : TypeWord n s) : n ≠ 0 ∧ typeNames[n - 1]? = some s := by
  cases h <;> exact ⟨by decide, rfl⟩

theorem displayStart_text (e : UEntry) : displayStart e = withWidth (shownOption e) := by
  have key : ∀ s : List UInt8, (s ++ (padTo 18 s.length).1, (padTo 18 s.length).2) = withWidth (column 18 s) := by
    intro s
    rw [show (18 : Int) = ((18 : Nat) : Int) from rfl, padTo_text]
    rfl
  unfold displayStart shownOption
  by_cases h0 : e.short = 0
  · simp only [if_pos h0]
    cases e.long with
    | none => exact key []
    | some n =>
      dsimp only
      rw [cutAt_nonneg (len := 34 - 0 - 3) (n := 31) _ rfl, ← key]
      have : (2 : Int) + min (34 - 0 - 3) (n.length : Int) = ((ascii "--" ++ n.take 31).length : Nat) := by
        rw [List.length_append, List.length_take, show (ascii "--").length = 2 from rfl]; omega
      rw [this]
  · have := longStart_text e
    unfold longStart at this
    rw [if_neg h0] at this
    simp only [if_neg h0]
    exact this

theorem displayType_text {e : UEntry} {name : String} (h0 : e.ty ≠ 0) (hn : typeNames[e.ty - 1]? = some name) (h : (shownOption e).length ≤ 33) :
    (displayType e (withWidth (shownOption e))).1 =
      column 35 (shownOption e ++ ascii " " ++ (ascii name).take (33 - (shownOption e).length) ++ (if e.array then ascii " array" else [])) := by
  unfold displayType
  simp only [if_neg h0, hn]
  unfold withWidth
  dsimp only
  rw [cutAt_nonneg (n := 33 - (shownOption e).length) _ (by omega)]
  unfold column padTo
  have e1 : ((shownOption e).length : Int) + min (34 - ((shownOption e).length : Int) - 1) ((ascii name).length : Int) + (if e.array = true then 6 else 0) + 1 =
      ((shownOption e ++ ascii " " ++ (ascii name).take (33 - (shownOption e).length) ++ (if e.array then ascii " array" else [])).length : Nat) := by
    cases e.array <;> simp [ascii] <;> omega
  generalize (shownOption e ++ ascii " " ++ (ascii name).take (33 - (shownOption e).length) ++ (if e.array then ascii " array" else [])) = l at *
  generalize ((shownOption e).length : Int) + min (34 - ((shownOption e).length : Int) - 1) ((ascii name).length : Int) + (if e.array = true then 6 else 0) = k at *
  congr 1
  split
  · dsimp only [spaces]
    congr 1
    omega
  · rw [show 35 - l.length = 0 by omega]; rfl

theorem shownOption_len {e : UEntry} (h : e.short = argvMand → Labelled e.ty → (e.label.getD (ascii "??")).length ≤ 33) :
    (shownOption e).length ≤ 33 := by
  unfold shownOption
  by_cases h0 : e.short = 0
  · rw [if_pos h0, column_len]
    cases e.long with
    | none => simp
    | some n => dsimp only; rw [List.length_append, List.length_take, show (ascii "--").length = 2 from rfl]; omega
  · rw [if_neg h0]
    by_cases hm : e.short = argvMand
    · unfold lineStart
      rw [if_neg h0, if_pos hm, column_len]
      have : (valueText e 34).length ≤ 33 := by
        unfold valueText
        split
        · decide
        · split
          · rename_i h3
            have := h hm h3
            rw [List.length_take]; omega
          · simp
      omega
    · rw [lineStart_len e h0 hm]; omega

theorem displayValue_text {real : Bool → Nat → List UInt8} (hr : ∀ k r, (0 : UInt8) ∉ real k r) {ty : Nat} {v : AVal} {t buf : List UInt8}
    (h : InDisplay real ty v t) (hb : 256 ≤ buf.length) : ∃ buf', displayValue real ty v buf = ok (t, buf') ∧ buf'.length = buf.length := by
  unfold displayValue
  cases h with
  | value h1 h2 h3 =>
    obtain ⟨m, len, e, s1, s2, s3, -⟩ := C116_shown_partial hr h1 h2 h3 (size := 256) (by omega) hb
    rw [e]
    refine ⟨m, ?_, s2⟩
    rename_i t
    have hlen : (t.take 255).length = len := by rw [List.length_take]; omega
    have : m.take len = t.take 255 := by
      have := congrArg (List.take len) s3
      rw [List.take_take, Nat.min_eq_left (by omega)] at this
      rw [this, List.take_append_of_le_length (by rw [hlen]), ← hlen, List.take_length]
    simp only [ok_bind, this]
  | text h1 =>
    rw [C116_plain_partial h1 (size := 256) (by omega) hb]
    rename_i t
    refine ⟨t.take (256 - 1) ++ buf.drop (min t.length (256 - 1)), ?_, ?_⟩
    · simp only [ok_bind]
      have hlen : (t.take (256 - 1)).length = min t.length (256 - 1) := by rw [List.length_take]; omega
      rw [List.take_append_of_le_length (by omega), ← hlen, List.take_length]
    · rw [List.length_append, List.length_take, List.length_drop]; omega

theorem displayValues_text {real : Bool → Nat → List UInt8} (hr : ∀ k r, (0 : UInt8) ∉ real k r) {ty : Nat} {vs : List AVal} {ts : List (List UInt8)}
    (h : List.Forall₂ (InDisplay real ty) vs ts) : ∀ {buf : List UInt8}, 256 ≤ buf.length → ∃ buf', displayValues real ty vs false buf =
      ok (ts.flatMap fun t => ascii "," ++ t, buf') ∧ buf'.length = buf.length := by
  induction h with
  | nil => intro buf _; exact ⟨buf, rfl, rfl⟩
  | cons h1 _ ih =>
    intro buf hb
    obtain ⟨b1, e1, l1⟩ := displayValue_text hr h1 hb
    obtain ⟨b2, e2, l2⟩ := ih (buf := b1) (by omega)
    refine ⟨b2, ?_, by omega⟩
    unfold displayValues
    rw [e1]
    simp only [ok_bind]
    rw [e2]
    rfl

theorem displayVar_text {real : Bool → Nat → List UInt8} (hr : ∀ k r, (0 : UInt8) ∉ real k r) {e : UEntry} {t buf : List UInt8}
    (h : VarText real e t) (hb : 256 ≤ buf.length) : ∃ buf', displayVar real e buf = ok (t, buf') ∧ buf'.length = buf.length := by
  unfold displayVar
  cases h with
  | one h1 h2 h3 => rw [h1, h2]; exact displayValue_text hr h3 hb
  | empty h1 h2 => rw [h1, h2]; exact ⟨buf, rfl, rfl⟩
  | many h1 h2 h3 h4 =>
    rw [h1, h3]
    cases h4 with
    | nil => exact absurd rfl h2
    | @cons v t vs ts h5 h6 =>
      dsimp only
      obtain ⟨b1, e1, l1⟩ := displayValue_text hr h5 hb
      obtain ⟨b2, e2, l2⟩ := displayValues_text hr h6 (buf := b1) (by omega)
      refine ⟨b2, ?_, by omega⟩
      unfold displayValues
      rw [e1]
      simp only [ok_bind]
      rw [e2]
      simp only [ok_bind, if_true, List.nil_append]
      have : ∀ (t : List UInt8) (ts : List (List UInt8)), List.intercalate (ascii ",") (t :: ts) = t ++ ts.flatMap fun t => ascii "," ++ t := by
        intro t ts
        induction ts generalizing t with
        | nil => simp [List.intercalate]
        | cons a as ih =>
          rw [List.flatMap_cons, List.append_assoc, ← ih a]
          simp [List.intercalate]
      rw [this]

/-- **C122.** `--argv-display` writes one line for each option and argument, in the order of the array: the option, its type, and its
value as a text; of an array all entries with commas between them. -/
theorem C122_display_partial {real : Bool → Nat → List UInt8} (hr : ∀ k r, (0 : UInt8) ∉ real k r) :
    ∀ {args : List UEntry} {lines : List (List UInt8)}, (∃ e ∈ args, e.short = argvLast) →
    (∀ e ∈ optsOf args, e.ty ≠ 0 ∧ (e.short = argvMand → Labelled e.ty → (e.label.getD (ascii "??")).length ≤ 33)) →
    List.Forall₂ (DisplayLine real) (optsOf args) lines → ∀ {buf : List UInt8}, 256 ≤ buf.length →
    displayVariables real args buf = ok lines.flatten := by
  intro args
  induction args with
  | nil => rintro lines ⟨e, h, -⟩; cases h
  | cons e es ih =>
    intro lines hl hm hd buf hb
    unfold displayVariables
    rw [optsOf_cons] at hm hd
    by_cases h1 : e.short = argvLast
    · rw [if_pos h1] at hd ⊢
      cases hd
      rfl
    · rw [if_neg h1] at hm hd ⊢
      have hl' := last_tail h1 hl
      by_cases h2 : orEntry e.toAEntry = true
      · rw [if_pos h2] at hm hd ⊢
        exact ih hl' hm hd hb
      · rw [if_neg h2] at hm hd ⊢
        cases hd with
        | @cons _ l _ ls d1 d2 =>
          obtain ⟨name, t, n1, n2, rfl⟩ := d1
          obtain ⟨b1, e1, l1⟩ := displayVar_text hr n2 hb
          obtain ⟨m1, m2⟩ := hm e List.mem_cons_self
          rw [e1]
          simp only [ok_bind]
          rw [ih hl' (fun x hx => hm x (List.mem_cons_of_mem _ hx)) d2 (buf := b1) (by omega)]
          simp only [ok_bind]
          rw [displayStart_text, displayType_text m1 (typeWord_get n1).2 (shownOption_len m2)]
          rfl

/-- A display: a flag that is not set, a number, an array of two strings and an empty one. -/
def displayGrid : List UEntry :=
  [⟨⟨118, some (ascii "verbose"), 1, false, false, false, some (.one (.num 0))⟩, none, none⟩,
   ⟨⟨110, none, 8, false, false, false, some (.one (.num (-7)))⟩, some (ascii "count"), none⟩,
   ⟨⟨0, some (ascii "word"), 5, true, false, false, some (.many [.str (some (ascii "ab")), .str (some (ascii "cd"))])⟩, none, none⟩,
   ⟨⟨0, some (ascii "other"), 5, true, false, false, some (.many [])⟩, none, none⟩,
   ⟨⟨argvLast, none, 0, false, false, false, none⟩, none, none⟩]

theorem display_lines (real : Bool → Nat → List UInt8) : List.Forall₂ (DisplayLine real) (optsOf displayGrid)
    [ascii "[-v]               flag            false (0)\n", ascii "[-n count]         integer         -7\n", ascii "--word             string array    ab,cd\n", ascii "--other            string array    no entries\n"] := by
  have h : optsOf displayGrid = displayGrid.take 4 := by decide
  rw [h]
  refine .cons ⟨"flag", _, .bool, .one rfl rfl (.value ⟨by decide, by decide⟩ (.no 1 (by decide)) (fun h => absurd h (by decide))), by decide⟩
    (.cons ⟨"integer", _, .int, .one rfl rfl (.value ⟨by decide, by decide⟩ (.number 8 (by decide) _) (fun h => absurd h (by decide))), by decide⟩
    (.cons ⟨"string", _, .charP, .many rfl (by simp) rfl (.cons (.text (.text _ (by unfold plainChar; decide))) (.cons (.text (.text _ (by unfold plainChar; decide))) .nil)), by decide⟩
    (.cons ⟨"string", _, .charP, .empty rfl rfl, by decide⟩ .nil)))

example (real : Bool → Nat → List UInt8) (hr : ∀ k r, (0 : UInt8) ∉ real k r) : displayVariables real displayGrid (List.replicate 256 9) =
    ok ([ascii "[-v]               flag            false (0)\n", ascii "[-n count]         integer         -7\n", ascii "--word             string array    ab,cd\n", ascii "--other            string array    no entries\n"] : List (List UInt8)).flatten := by
  refine C122_display_partial hr ⟨_, List.mem_of_getElem? (show displayGrid[4]? = some _ from rfl), rfl⟩ ?_ (display_lines real) (by rw [List.length_replicate])
  have h : optsOf displayGrid = displayGrid.take 4 := by decide
  rw [h]
  intro e he
  simp only [displayGrid, List.take, List.mem_cons, List.not_mem_nil, or_false] at he
  rcases he with rfl | rfl | rfl | rfl <;> exact ⟨by decide, fun h => absurd h (by decide)⟩

/-- **C122.** The words: each message has its own word, and what the program has set as its version is shown. -/
theorem C122_words (real : Bool → Nat → List UInt8) (prog : List UInt8) (usageType : Nat) (help version : Option (List UInt8)) (grid : List UEntry)
    (buf : List UInt8) :
    answerWord real prog usageType help version grid buf (ascii "usage") = some (doUsage prog grid usageType) ∧
    answerWord real prog usageType help version grid buf (ascii "usage-short") = some (usageShort prog grid 1) ∧
    answerWord real prog usageType help version grid buf (ascii "usage-long") = some (usageLong prog grid) ∧
    answerWord real prog usageType help version grid buf (ascii "usage-all") = some (doUsage prog grid 6) ∧
    answerWord real prog usageType help version grid buf (ascii "argv-display") = some (displayVariables real grid buf) ∧
    (∀ v, version = some v → answerWord real prog usageType help version grid buf (ascii "version") =
      some (ok (prog ++ ascii ": " ++ v ++ [10]))) := by
  refine ⟨?_, ?_, ?_, ?_, ?_, fun v hv => ?_⟩ <;> unfold answerWord
  · rw [if_pos (by decide)]
  · rw [if_neg (by decide), if_pos (by decide)]; rfl
  · rw [if_neg (by decide), if_neg (by decide), if_pos (by decide)]; rfl
  · rw [if_neg (by decide), if_neg (by decide), if_neg (by decide), if_pos (by decide)]
  · rw [if_neg (by decide), if_neg (by decide), if_neg (by decide), if_neg (by decide), if_neg (by decide), if_neg (by decide), if_pos (by decide)]
  · rw [if_neg (by decide), if_neg (by decide), if_neg (by decide), if_neg (by decide), if_neg (by decide), if_pos (by decide), hv]
    rfl

/-- **C122, violated: `--help`.** No word makes the program write its help text: `--help` is the same as `--usage`. -/
theorem C122_help_violated (real : Bool → Nat → List UInt8) (prog : List UInt8) (usageType : Nat) (help help' version : Option (List UInt8))
    (grid : List UEntry) (buf rest : List UInt8) :
    answerWord real prog usageType help version grid buf rest = answerWord real prog usageType help' version grid buf rest ∧
    answerWord real prog usageType help version grid buf (ascii "help") = some (doUsage prog grid usageType) := by
  refine ⟨?_, by unfold answerWord; rw [if_pos (by decide)]⟩
  unfold answerWord
  by_cases h : rest.isPrefixOf (ascii "usage") = true ∨ rest.isPrefixOf (ascii "help") = true
  · rw [if_pos h, if_pos h]
  · have h2 : ¬ rest.isPrefixOf (ascii "help") = true := fun x => h (.inr x)
    simp only [if_neg h, if_neg h2]

end Wdns
