import Verif.Model.ArgvUsage
import Verif.Lemmas.TextBase

/-!
# C121: the usage messages of libmy/argv.c
-/

namespace Wdns
open Outcome

/-! ## Specification -/

namespace Spec

/-- The entries of an array that are options or arguments: those in front of `ARGV_LAST` but `ARGV_OR` and `ARGV_XOR`. -/
def optsOf (args : List UEntry) : List UEntry :=
  (args.takeWhile fun e => e.short ≠ argvLast).filter fun e => e.short ≠ argvOr ∧ e.short ≠ argvXor

/-- No line is longer than 79 columns, in a text that begins in column `c`. -/
def Narrow : Nat → List UInt8 → Prop
  | c, [] => c ≤ 79
  | c, b :: s => if b = 10 then c ≤ 79 ∧ Narrow 0 s else Narrow (c + 1) s

/-- A text with blanks behind it, up to a column. -/
def column (k : Nat) (s : List UInt8) : List UInt8 := s ++ List.replicate (k - s.length) 32

/-- The types whose value has a name of its own in the message (neither flags nor `yes|no`). -/
def Labelled (ty : Nat) : Prop := 4 ≤ ty ∧ ty ≤ 19 ∧ ty ≠ 17

instance (ty : Nat) : Decidable (Labelled ty) := inferInstanceAs (Decidable (_ ∧ _ ∧ _))

/-- What stands for the value of an option, in a place of `room` columns. -/
def valueText (e : UEntry) (room : Nat) : List UInt8 :=
  if e.ty = 3 ∨ e.ty = 22 then ascii "yes|no"
  else if 4 ≤ e.ty ∧ e.ty ≤ 19 ∧ e.ty ≠ 17 then (e.label.getD (ascii "??")).take room
  else []

/-- The beginning of the line: the option with its value, 18 columns wide. -/
def lineStart (e : UEntry) : List UInt8 :=
  if e.short = 0 then ascii "["
  else column 18 <|
    if e.short = argvMand then valueText e 34
    else if e.short = argvMaybe then ascii "[" ++ valueText e 16 ++ ascii "]"
    else if hasArg e.ty then ascii "[-" ++ [e.short] ++ ascii " " ++ valueText e 13 ++ ascii "]"
    else ascii "[-" ++ [e.short] ++ ascii "]"

/-- The long name, cut so that it ends in front of column 34. -/
def lineName (e : UEntry) : List UInt8 :=
  match e.long with
  | none => []
  | some n => if e.short = 0 then ascii "--" ++ n.take 30 else ascii "or --" ++ n.take (28 - (lineStart e).length)

/-- The value of an option that has only a long name. -/
def lineValue (e : UEntry) : List UInt8 :=
  if e.short ≠ 0 then []
  else if hasArg e.ty then ascii " " ++ valueText e (33 - (1 + (lineName e).length + 1)) ++ ascii "]"
  else ascii "]"

/-- The line of an option in the long message: the option in column 0, the long name in column 18, the comment in column 34 and
cut at column 79. -/
def usageLine (e : UEntry) : List UInt8 :=
  match e.comment with
  | none => lineStart e ++ lineName e ++ lineValue e ++ [10]
  | some m =>
    let l := column 34 (lineStart e ++ lineName e ++ lineValue e)
    l ++ m.take (79 - l.length) ++ [10]

/-- There is room for what the message shows of the entry: a long name that stands alone in front of a value has less than 30
octets, the value of an argument by position that has a long name at most 28. -/
def Roomy (e : UEntry) : Prop :=
  (e.short = 0 → Labelled e.ty → ∀ n, e.long = some n → n.length < 30) ∧
  (e.short = argvMand → e.long ≠ none → Labelled e.ty → (e.label.getD (ascii "??")).length ≤ 28)

/-- Words one after the other, each behind a blank, or on a new line that is indented by seven blanks. -/
inductive Laid : List (List UInt8) → List UInt8 → Prop
  | nil : Laid [] []
  | blank {w ws t} : Laid ws t → Laid (w :: ws) ([32] ++ w ++ t)
  | line {w ws t} : Laid ws t → Laid (w :: ws) ([10] ++ List.replicate 7 32 ++ w ++ t)

/-- The label of a value. -/
def labelOf (e : UEntry) : List UInt8 := e.label.getD (if e.ty = 3 ∨ e.ty = 22 then ascii "yes|no" else ascii "??")

/-- The words for an option with a value, or an argument. -/
def valueWords (e : UEntry) : List (List UInt8) :=
  if e.short = argvMand then [labelOf e]
  else if e.short = argvMaybe then [ascii "[" ++ labelOf e ++ ascii "]"]
  else [ascii "[-" ++ [e.short], labelOf e ++ ascii "]"]

/-- The letters of the flags. -/
def flagLetters (args : List UEntry) : List UInt8 :=
  ((optsOf args).filter fun e => !hasArg e.ty && e.short ≠ 0).map fun e => e.short

end Spec

open Spec

/-! ## Widths -/

/-- The column behind a text. -/
def endCol : Nat → List UInt8 → Nat
  | c, [] => c
  | c, b :: s => if b = 10 then endCol 0 s else endCol (c + 1) s

theorem narrow_cons (c : Nat) (b : UInt8) (s : List UInt8) : Narrow c (b :: s) = if b = 10 then c ≤ 79 ∧ Narrow 0 s else Narrow (c + 1) s := rfl
theorem endCol_cons (c : Nat) (b : UInt8) (s : List UInt8) : endCol c (b :: s) = if b = 10 then endCol 0 s else endCol (c + 1) s := rfl

theorem Spec.Narrow.le {s : List UInt8} : ∀ {c : Nat}, Narrow c s → c ≤ 79 := by
  induction s with
  | nil => intro c h; exact h
  | cons b s ih =>
    intro c h
    unfold Narrow at h
    split at h
    · exact h.1
    · have := ih h; omega

theorem narrow_append {t : List UInt8} : ∀ {s : List UInt8} {c : Nat}, Narrow c (s ++ t) ↔ Narrow c s ∧ Narrow (endCol c s) t := by
  intro s
  induction s with
  | nil => intro c; exact ⟨fun h => ⟨h.le, h⟩, fun h => h.2⟩
  | cons b s ih =>
    intro c
    rw [List.cons_append, narrow_cons, narrow_cons, endCol_cons]
    by_cases hb : b = 10
    · rw [if_pos hb, if_pos hb, if_pos hb, ih]; exact and_assoc.symm
    · rw [if_neg hb, if_neg hb, if_neg hb]; exact ih

theorem endCol_append {t : List UInt8} : ∀ {s : List UInt8} {c : Nat}, endCol c (s ++ t) = endCol (endCol c s) t := by
  intro s
  induction s with
  | nil => intro c; rfl
  | cons b s ih =>
    intro c
    rw [List.cons_append, endCol_cons, endCol_cons]
    split <;> rw [ih]

theorem narrow_mono {s : List UInt8} : ∀ {c d : Nat}, c ≤ d → Narrow d s → Narrow c s := by
  induction s with
  | nil => intro c d h hd; exact Nat.le_trans h hd
  | cons b s ih =>
    intro c d h hd
    unfold Narrow at hd ⊢
    split
    · rename_i hb
      rw [if_pos hb] at hd
      exact ⟨by omega, hd.2⟩
    · rename_i hb
      rw [if_neg hb] at hd
      exact ih (by omega) hd

theorem endCol_le {s : List UInt8} : ∀ {c : Nat}, endCol c s ≤ c + s.length := by
  induction s with
  | nil => intro c; exact Nat.le_refl _
  | cons b s ih =>
    intro c
    unfold endCol
    split
    · have := @ih 0; simp; omega
    · have := @ih (c + 1); simp; omega

theorem narrow_short {s : List UInt8} : ∀ {c : Nat}, c + s.length ≤ 79 → Narrow c s := by
  induction s with
  | nil => intro c h; exact h
  | cons b s ih =>
    intro c h
    simp at h
    unfold Narrow
    split
    · exact ⟨by omega, ih (by omega)⟩
    · exact ih (by omega)

theorem endCol_plain {s : List UInt8} : ∀ {c : Nat}, (10 : UInt8) ∉ s → endCol c s = c + s.length := by
  induction s with
  | nil => intro c _; rfl
  | cons b s ih =>
    intro c h
    simp at h
    unfold endCol
    rw [if_neg (fun e => h.1 e.symm), ih h.2]
    simp; omega

/-! ## The long message -/

theorem cutAt_nonneg {n : Nat} {len : Int} (s : List UInt8) (h : len = n) : cutAt len s = s.take n := by
  subst h
  unfold cutAt
  rw [if_neg (by omega)]
  rfl

theorem displayArg_text (e : UEntry) {max col : Nat} (h : Labelled e.ty → col ≤ max) :
    displayArg e max col = (valueText e (max - col), ((col + (valueText e (max - col)).length : Nat) : Int)) := by
  unfold displayArg valueText
  by_cases h3 : e.ty = 3 ∨ e.ty = 22
  · rw [if_neg (by omega), if_pos h3, if_pos h3]
    rfl
  · rw [if_neg h3, if_neg h3]
    by_cases hl : 4 ≤ e.ty ∧ e.ty ≤ 19 ∧ e.ty ≠ 17
    · rw [if_neg (by omega), if_neg (by omega), if_pos hl]
      have hc := h hl
      cases e.label with
      | none =>
        rw [Option.getD_none]
        dsimp only
        rw [cutAt_nonneg (n := max - col) _ (by omega), List.length_take, show (ascii "??").length = 2 from rfl]
        simp only [Prod.mk.injEq, true_and]
        omega
      | some l =>
        rw [Option.getD_some]
        dsimp only
        rw [cutAt_nonneg (n := max - col) _ (by omega), List.length_take]
        simp only [Prod.mk.injEq, true_and]
        omega
    · rw [if_neg hl]
      by_cases hf : e.ty = 1 ∨ e.ty = 2 ∨ e.ty = 17 ∨ e.ty = 20 ∨ e.ty = 21
      · rw [if_pos hf]; simp
      · rw [if_neg hf, if_pos (by omega)]; simp

theorem valueText_le (e : UEntry) {room : Nat} (h : 6 ≤ room) : (valueText e room).length ≤ room := by
  unfold valueText
  split
  · exact h
  · split
    · rw [List.length_take]; omega
    · simp

theorem padTo_text {k : Nat} (s : List UInt8) : padTo k s.length = (List.replicate (k - s.length) 32, ((column k s).length : Int)) := by
  unfold padTo column
  rw [List.length_append, List.length_replicate]
  split
  · rename_i h
    simp only [spaces, Prod.mk.injEq]
    exact ⟨by congr 1; omega, by omega⟩
  · rename_i h
    have : k - s.length = 0 := by omega
    rw [this]
    simp

theorem lineStart_len (e : UEntry) (h0 : e.short ≠ 0) (hm : e.short ≠ argvMand) : (lineStart e).length = 18 := by
  have key : ∀ s : List UInt8, s.length ≤ 18 → (column 18 s).length = 18 := by
    intro s h; unfold column; rw [List.length_append, List.length_replicate]; omega
  unfold lineStart
  rw [if_neg h0, if_neg hm]
  have v13 := valueText_le e (room := 13) (by omega)
  have v16 := valueText_le e (room := 16) (by omega)
  split
  · exact key _ (by simp [ascii]; omega)
  · split
    · exact key _ (by simp [ascii]; omega)
    · exact key _ (by simp [ascii])

theorem displayOption_text (e : UEntry) : displayOption e 0 =
    ((if e.short = argvMaybe then ascii "[" ++ valueText e 16 ++ ascii "]"
      else if hasArg e.ty then ascii "[-" ++ [e.short] ++ ascii " " ++ valueText e 13 ++ ascii "]"
      else ascii "[-" ++ [e.short] ++ ascii "]"),
     (((if e.short = argvMaybe then ascii "[" ++ valueText e 16 ++ ascii "]"
      else if hasArg e.ty then ascii "[-" ++ [e.short] ++ ascii " " ++ valueText e 13 ++ ascii "]"
      else ascii "[-" ++ [e.short] ++ ascii "]").length : Nat) : Int)) := by
  unfold displayOption
  by_cases hm : e.short = argvMaybe
  · rw [if_pos hm, if_pos hm]
    have := displayArg_text e (max := 17) (col := 1) (by omega)
    dsimp only
    rw [show (0 : Int) + 1 = ((1 : Nat) : Int) from rfl, show (17 : Int) = ((17 : Nat) : Int) from rfl, this]
    simp [ascii]; omega
  · rw [if_neg hm, if_neg hm]
    by_cases ha : hasArg e.ty = true
    · rw [if_pos ha, if_pos ha]
      have := displayArg_text e (max := 17) (col := 4) (by omega)
      dsimp only
      rw [show (0 : Int) + 4 = ((4 : Nat) : Int) from rfl, show (17 : Int) = ((17 : Nat) : Int) from rfl, this]
      simp [ascii]; omega
    · rw [if_neg ha, if_neg ha]
      have := displayArg_text e (max := 17) (col := 3) (by omega)
      have hv : valueText e 14 = [] := by
        unfold valueText
        unfold hasArg at ha
        simp only [Bool.not_eq_true, Bool.not_eq_false', Bool.or_eq_true, decide_eq_true_eq] at ha
        rw [if_neg (by omega), if_neg (by omega)]
      dsimp only
      rw [show (0 : Int) + 3 = ((3 : Nat) : Int) from rfl, show (17 : Int) = ((17 : Nat) : Int) from rfl, this, show 17 - 3 = 14 from rfl, hv]
      simp [ascii]

theorem valueText_flag {e : UEntry} (ha : ¬ hasArg e.ty = true) (room : Nat) : valueText e room = [] := by
  unfold valueText
  unfold hasArg at ha
  simp only [Bool.not_eq_true, Bool.not_eq_false', Bool.or_eq_true, decide_eq_true_eq] at ha
  rw [if_neg (by omega), if_neg (by omega)]

/-- A text with its width. -/
def withWidth (s : List UInt8) : List UInt8 × Int := (s, (s.length : Int))

theorem longStart_text (e : UEntry) : longStart e = withWidth (lineStart e) := by
  unfold longStart lineStart
  by_cases h0 : e.short = 0
  · rw [if_pos h0, if_pos h0]; rfl
  · rw [if_neg h0, if_neg h0]
    dsimp only
    have key : ∀ s : List UInt8, (s ++ (padTo 18 s.length).1, (padTo 18 s.length).2) = withWidth (column 18 s) := by
      intro s
      rw [show (18 : Int) = ((18 : Nat) : Int) from rfl, padTo_text]
      rfl
    by_cases hm : e.short = argvMand
    · rw [if_pos hm, if_pos hm]
      have := displayArg_text e (max := 34) (col := 0) (by omega)
      rw [show (34 : Int) = ((34 : Nat) : Int) from rfl, show (0 : Int) = ((0 : Nat) : Int) from rfl, this]
      dsimp only
      rw [Nat.zero_add]
      exact key _
    · rw [if_neg hm, if_neg hm, displayOption_text]
      dsimp only
      exact key _

theorem column_len (k : Nat) (l : List UInt8) : (column k l).length = max k l.length := by
  unfold column
  rw [List.length_append, List.length_replicate]; omega

theorem longComment_text (e : UEntry) (l : List UInt8) (h : l.length ≤ 79) : longComment e (withWidth l) =
    match e.comment with
    | none => l ++ [10]
    | some m => column 34 l ++ m.take (79 - (column 34 l).length) ++ [10] := by
  unfold longComment withWidth
  cases e.comment with
  | none => rfl
  | some m =>
    dsimp only
    rw [show (34 : Int) = ((34 : Nat) : Int) from rfl, padTo_text]
    dsimp only
    rw [cutAt_nonneg (n := 79 - (column 34 l).length) _ (by have := column_len 34 l; omega)]
    rfl

theorem lineStart_roomy {e : UEntry} (h : Roomy e) (h0 : e.short ≠ 0) : (lineStart e).length ≤ 34 ∧ (e.long ≠ none → (lineStart e).length ≤ 28) := by
  by_cases hm : e.short = argvMand
  · have hv := valueText_le e (room := 34) (by omega)
    unfold lineStart
    rw [if_neg h0, if_pos hm, column_len]
    refine ⟨by omega, fun hl => ?_⟩
    have h2 := h.2 hm hl
    have : (valueText e 34).length ≤ 28 := by
      unfold valueText
      split
      · decide
      · split
        · rename_i h3
          have := h2 h3
          rw [List.length_take]; omega
        · simp
    omega
  · rw [lineStart_len e h0 hm]; omega

theorem longPart_text {e : UEntry} (h : Roomy e) : longPart e (withWidth (lineStart e)) = withWidth (lineStart e ++ lineName e) := by
  unfold longPart lineName withWidth
  cases hn : e.long with
  | none => simp
  | some n =>
    dsimp only
    by_cases h0 : e.short = 0
    · have e1 : lineStart e = ascii "[" := by unfold lineStart; rw [if_pos h0]
      rw [if_pos h0, if_pos h0, e1, cutAt_nonneg (len := 34 - ((ascii "[").length : Int) - 3) (n := 30) _ (by simp [ascii])]
      simp [ascii]; omega
    · have r := (lineStart_roomy h h0).2 (by simp [hn])
      rw [if_neg h0, if_neg h0, cutAt_nonneg (n := 28 - (lineStart e).length) _ (by omega)]
      simp [ascii]; omega

theorem lineName_only {e : UEntry} (h : Roomy e) (h0 : e.short = 0) : (lineName e).length ≤ 32 ∧ (Labelled e.ty → (lineName e).length ≤ 31) := by
  unfold lineName
  cases hn : e.long with
  | none => simp
  | some n =>
    dsimp only
    rw [if_pos h0, List.length_append, List.length_take, show (ascii "--").length = 2 from rfl]
    exact ⟨by omega, fun hl => by have := h.1 h0 hl n hn; omega⟩

theorem longValue_text {e : UEntry} (h : Roomy e) :
    longValue e (withWidth (lineStart e ++ lineName e)) = withWidth (lineStart e ++ lineName e ++ lineValue e) := by
  unfold longValue lineValue
  by_cases h0 : e.short = 0
  · have e1 : lineStart e = ascii "[" := by unfold lineStart; rw [if_pos h0]
    obtain ⟨n1, n2⟩ := lineName_only h h0
    rw [if_pos h0, if_neg (show ¬ e.short ≠ 0 from fun hn => hn h0), e1]
    by_cases ha : hasArg e.ty = true
    · rw [if_pos ha, if_pos ha]
      have := displayArg_text e (max := 33) (col := 1 + (lineName e).length + 1) (fun hl => by have := n2 hl; omega)
      have e2 : (withWidth (ascii "[" ++ lineName e)).2 + 1 = ((1 + (lineName e).length + 1 : Nat) : Int) := by
        simp [withWidth, ascii]; omega
      dsimp only
      rw [e2, show (33 : Int) = ((33 : Nat) : Int) from rfl, this]
      simp [withWidth, ascii]; omega
    · rw [if_neg ha, if_neg ha]
      have := displayArg_text e (max := 33) (col := 1 + (lineName e).length) (fun hl => by have := n2 hl; omega)
      have e2 : (withWidth (ascii "[" ++ lineName e)).2 = ((1 + (lineName e).length : Nat) : Int) := by
        simp [withWidth, ascii]; omega
      dsimp only
      rw [e2, show (33 : Int) = ((33 : Nat) : Int) from rfl, this, valueText_flag ha]
      simp [withWidth, ascii]; omega
  · rw [if_neg h0, if_pos h0, List.append_nil]

theorem line_len {e : UEntry} (h : Roomy e) : (lineStart e ++ lineName e ++ lineValue e).length ≤ 41 ∧
    (e.short ≠ 0 → (lineStart e ++ lineName e ++ lineValue e).length ≤ 34) := by
  rw [List.length_append, List.length_append]
  by_cases h0 : e.short = 0
  · have e1 : (lineStart e).length = 1 := by unfold lineStart; rw [if_pos h0]; rfl
    obtain ⟨n1, n2⟩ := lineName_only h h0
    refine ⟨?_, fun hn => absurd h0 hn⟩
    have e3 : (lineValue e).length ≤ 8 ∨ (lineValue e).length + (lineName e).length ≤ 33 := by
      unfold lineValue
      rw [if_neg (by simp [h0])]
      split
      · rw [List.length_append, List.length_append]
        unfold valueText
        split
        · left; decide
        · split
          · right
            rename_i hl
            have := n2 hl
            rw [List.length_take]; simp [ascii]; omega
          · left; decide
      · left; decide
    omega
  · obtain ⟨r1, r2⟩ := lineStart_roomy h h0
    have e3 : (lineValue e).length = 0 := by unfold lineValue; rw [if_pos h0]; rfl
    have e2 : (lineName e).length + (lineStart e).length ≤ 34 := by
      unfold lineName
      cases hn : e.long with
      | none => simpa using r1
      | some n =>
        have := r2 (by simp [hn])
        dsimp only; rw [if_neg h0, List.length_append, List.length_take]; simp [ascii]; omega
    omega

theorem longLine_text {e : UEntry} (h : Roomy e) : longLine e = usageLine e := by
  have := (line_len h).1
  unfold longLine
  rw [longStart_text, longPart_text h, longValue_text h, longComment_text _ _ (by omega)]
  rfl

theorem optsOf_cons (e : UEntry) (es : List UEntry) : optsOf (e :: es) =
    if e.short = argvLast then [] else if orEntry e.toAEntry then optsOf es else e :: optsOf es := by
  unfold optsOf orEntry
  by_cases hl : e.short = argvLast
  · rw [if_pos hl, List.takeWhile_cons, if_neg (by simp [hl])]; rfl
  · rw [if_neg hl, List.takeWhile_cons, if_pos (by simp [hl])]
    by_cases ho : e.short = argvOr
    · simp [ho]
    · by_cases hx : e.short = argvXor
      · simp [hx]
      · simp [ho, hx]

theorem uLongLoop_text : ∀ {args : List UEntry}, (∃ e ∈ args, e.short = argvLast) → (∀ e ∈ optsOf args, Roomy e) →
    uLongLoop args = ok ((optsOf args).flatMap usageLine) := by
  intro args
  induction args with
  | nil => rintro ⟨e, h, -⟩; cases h
  | cons e es ih =>
    intro hl hr
    unfold uLongLoop
    rw [optsOf_cons] at hr ⊢
    by_cases h1 : e.short = argvLast
    · rw [if_pos h1, if_pos h1]; rfl
    · rw [if_neg h1] at hr
      rw [if_neg h1, if_neg h1]
      have hl' : ∃ e ∈ es, e.short = argvLast := by
        obtain ⟨x, hx, h⟩ := hl
        rcases List.mem_cons.mp hx with rfl | hx
        · exact absurd h h1
        · exact ⟨x, hx, h⟩
      by_cases h2 : orEntry e.toAEntry = true
      · rw [if_pos h2] at hr
        rw [if_pos h2, if_pos h2]
        exact ih hl' hr
      · rw [if_neg h2] at hr
        rw [if_neg h2, if_neg h2, ih hl' (fun x hx => hr x (List.mem_cons_of_mem _ hx)), longLine_text (hr e List.mem_cons_self)]
        rfl

/-- **C121.** The long message has one line for each option and argument, in the order of the array: the short option with its value
in column 0, the long name in column 18, the comment in column 34, all cut to their places. -/
theorem C121_long_partial (prog : List UInt8) {args : List UEntry} (hl : ∃ e ∈ args, e.short = argvLast) (hr : ∀ e ∈ optsOf args, Roomy e) :
    usageLong prog args = ok (ascii "Usage: " ++ prog ++ [10] ++ (optsOf args).flatMap usageLine) := by
  unfold usageLong
  rw [uLongLoop_text hl hr]
  rfl

theorem usageLine_narrow {e : UEntry} (h : Roomy e) : Narrow 0 (usageLine e) ∧ endCol 0 (usageLine e) = 0 := by
  obtain ⟨k, -⟩ := line_len h
  have key : ∀ l : List UInt8, l.length ≤ 79 → Narrow 0 (l ++ [10]) ∧ endCol 0 (l ++ [10]) = 0 := by
    intro l hl
    rw [narrow_append, endCol_append]
    refine ⟨⟨narrow_short (by omega), ?_⟩, rfl⟩
    show endCol 0 l ≤ 79 ∧ 0 ≤ 79
    have := @endCol_le l 0
    omega
  unfold usageLine
  split
  · exact key _ (by omega)
  · dsimp only
    refine key _ ?_
    rw [List.length_append, List.length_take, column_len]
    omega

theorem lines_narrow : ∀ {es : List UEntry}, (∀ e ∈ es, Roomy e) → Narrow 0 (es.flatMap usageLine) := by
  intro es
  induction es with
  | nil => intro _; exact Nat.zero_le _
  | cons e es ih =>
    intro h
    rw [List.flatMap_cons, narrow_append]
    obtain ⟨h1, h2⟩ := usageLine_narrow (h e List.mem_cons_self)
    rw [h2]
    exact ⟨h1, ih fun x hx => h x (List.mem_cons_of_mem _ hx)⟩

/-- **C121.** No line of the long message is longer than 79 columns. -/
theorem C121_long_width_partial {prog : List UInt8} {args : List UEntry} (hp : prog.length ≤ 72) (hr : ∀ e ∈ optsOf args, Roomy e)
    {t : List UInt8} (h : usageLong prog args = ok t) : Narrow 0 t := by
  have hl : ∃ e ∈ args, e.short = argvLast := by
    have key : ∀ args : List UEntry, (¬ ∃ e ∈ args, e.short = argvLast) → uLongLoop args = ub := by
      intro args
      induction args with
      | nil => intro _; rfl
      | cons e es ih =>
        intro hn
        have h1 : ¬ e.short = argvLast := fun he => hn ⟨e, List.mem_cons_self, he⟩
        have h2 := ih fun ⟨x, hx, he⟩ => hn ⟨x, List.mem_cons_of_mem _ hx, he⟩
        unfold uLongLoop
        rw [if_neg h1, h2]
        split <;> rfl
    by_contra hn
    unfold usageLong at h
    rw [key args hn] at h
    cases h
  rw [C121_long_partial prog hl hr] at h
  cases h
  have hn : Narrow 0 (ascii "Usage: " ++ prog) := narrow_short (by simp [ascii]; omega)
  rw [narrow_append, narrow_append]
  refine ⟨⟨hn, ?_⟩, by rw [endCol_append]; exact lines_narrow hr⟩
  show endCol 0 (ascii "Usage: " ++ prog) ≤ 79 ∧ 0 ≤ 79
  have := @endCol_le (ascii "Usage: " ++ prog) 0
  simp [ascii] at this
  exact ⟨by simp [ascii]; omega, by omega⟩

/-- **C121.** What the line of an option tells: it begins with the option; a long name of at most ten octets stands in full in column
18; a comment of at most 45 octets stands in full in column 34 and ends the line. -/
theorem C121_line {e : UEntry} (h0 : e.short ≠ 0) (hm : e.short ≠ argvMand) :
    (e.short ≠ argvMaybe → ascii "[-" ++ [e.short] <+: longLine e) ∧
    (∀ n, e.long = some n → n.length ≤ 10 → ∃ x y, longLine e = x ++ ascii "or --" ++ n ++ y ∧ x.length = 18) ∧
    (∀ m, e.comment = some m → m.length ≤ 45 → ∃ x, longLine e = x ++ m ++ [10] ∧ x.length = 34) := by
  have hr : Roomy e := ⟨fun h => absurd h h0, fun h => absurd h hm⟩
  rw [longLine_text hr]
  obtain ⟨-, k⟩ := line_len hr
  have k := k h0
  have hs := lineStart_len e h0 hm
  have hcut : ∃ y, usageLine e = lineStart e ++ lineName e ++ y := by
    unfold usageLine column
    split
    · exact ⟨_, List.append_assoc _ _ _⟩
    · dsimp only
      exact ⟨_, by simp only [List.append_assoc]; rfl⟩
  obtain ⟨y, hy⟩ := hcut
  refine ⟨fun hb => ?_, fun n hn h10 => ?_, fun m hc h45 => ?_⟩
  · rw [hy]
    have : ascii "[-" ++ [e.short] <+: lineStart e := by
      unfold lineStart
      rw [if_neg h0, if_neg hm, if_neg hb]
      unfold column
      split <;> simp only [List.append_assoc] <;> exact ⟨_, rfl⟩
    exact this.trans ⟨lineName e ++ y, by simp⟩
  · refine ⟨lineStart e, y, ?_, hs⟩
    rw [hy]
    have : lineName e = ascii "or --" ++ n := by
      unfold lineName
      rw [hn]
      dsimp only
      rw [if_neg h0, hs, List.take_of_length_le (by omega)]
    rw [this]; simp
  · refine ⟨column 34 (lineStart e ++ lineName e ++ lineValue e), ?_, by rw [column_len]; omega⟩
    unfold usageLine
    rw [hc]
    dsimp only
    rw [column_len, List.take_of_length_le (by omega)]

/-- **C121.** If an option has no short name, its line begins with the first thirty octets of the long name. -/
theorem C121_line_only {e : UEntry} (h0 : e.short = 0) {n : List UInt8} (hn : e.long = some n) : ascii "[--" ++ n.take 30 <+: longLine e := by
  unfold longLine longStart
  rw [if_pos h0]
  unfold longPart
  rw [hn]
  dsimp only
  rw [if_pos h0, cutAt_nonneg (len := 34 - 1 - 3) (n := 30) _ rfl]
  have hv : ∀ b : List UInt8 × Int, b.1 <+: (longValue e b).1 := by
    intro b
    unfold longValue
    rw [if_pos h0]
    dsimp only
    split <;> simp only [List.append_assoc] <;> exact ⟨_, rfl⟩
  have hc : ∀ c : List UInt8 × Int, c.1 <+: longComment e c := by
    intro c
    unfold longComment
    split
    · exact ⟨_, rfl⟩
    · simp only [List.append_assoc]; exact ⟨_, rfl⟩
  exact List.IsPrefix.trans ⟨[], by simp [ascii]⟩ ((hv _).trans (hc _))

/-- **C121, violated.** For an option that has a value and only a long name, of 30 octets or more, the remaining room is -1, which counts
as no limit: the label is written in full and the line is longer than 79 columns by more than that. -/
theorem C121_width_violated {e : UEntry} (h0 : e.short = 0) (ht : Labelled e.ty) {n l m : List UInt8} (hn : e.long = some n) (h30 : 30 ≤ n.length)
    (hl : e.label = some l) (hm : e.comment = some m) (h45 : 45 ≤ m.length) (hc : (10 : UInt8) ∉ n ++ l ++ m) :
    longLine e = ascii "[--" ++ n.take 30 ++ ascii " " ++ l ++ ascii "]" ++ m.take 45 ++ [10] ∧ ¬ Narrow 0 (longLine e) := by
  have ha : hasArg e.ty = true := by
    obtain ⟨a, b, c⟩ := ht
    unfold hasArg
    simp only [Bool.not_eq_true', Bool.or_eq_false_iff, decide_eq_false_iff_not]
    omega
  have he : longLine e = ascii "[--" ++ n.take 30 ++ ascii " " ++ l ++ ascii "]" ++ m.take 45 ++ [10] := by
    unfold longLine longStart
    rw [if_pos h0]
    unfold longPart
    rw [hn]
    dsimp only
    rw [if_pos h0, cutAt_nonneg (len := 34 - 1 - 3) (n := 30) _ rfl, show min ((34 : Int) - 1 - 3) n.length = 30 by omega]
    unfold longValue
    rw [if_pos h0, if_pos ha]
    dsimp only
    have hd : displayArg e 33 (1 + (2 + 30) + 1) = (l, 33) := by
      obtain ⟨a, b, c⟩ := ht
      unfold displayArg
      rw [if_neg (by omega), if_neg (by omega), if_neg (by omega), hl]
      dsimp only
      rw [show min ((33 : Int) - (1 + (2 + 30) + 1)) l.length = -1 by omega]
      rfl
    rw [hd]
    unfold longComment
    rw [hm]
    dsimp only
    rw [show padTo 34 ((33 : Int) + 1) = ([], 34) from rfl]
    dsimp only
    rw [cutAt_nonneg (len := 79 - 34) (n := 45) _ rfl]
    simp [ascii]
  refine ⟨he, fun hN => ?_⟩
  rw [he, narrow_append] at hN
  have h2 := hN.2.le
  have hno : (10 : UInt8) ∉ ascii "[--" ++ n.take 30 ++ ascii " " ++ l ++ ascii "]" ++ m.take 45 := by
    simp only [List.mem_append, not_or] at hc ⊢
    exact ⟨⟨⟨⟨⟨by decide, fun h => hc.1.1 (List.mem_of_mem_take h)⟩, by decide⟩, hc.1.2⟩, by decide⟩, fun h => hc.2 (List.mem_of_mem_take h)⟩
  rw [endCol_plain hno] at h2
  simp [ascii] at h2
  omega

/-! ## The short message -/

theorem laid_append {a b : List (List UInt8)} {s t : List UInt8} (h : Laid a s) (h' : Laid b t) : Laid (a ++ b) (s ++ t) := by
  induction h with
  | nil => exact h'
  | blank _ ih => simpa only [List.cons_append, List.append_assoc] using Laid.blank (w := _) ih
  | line _ ih => simpa only [List.cons_append, List.append_assoc] using Laid.line (w := _) ih

theorem newLine_width {c : Nat} (hc : c ≤ 79) (w : List UInt8) (hw : w.length ≤ 72) :
    Narrow c (newLine ++ w) ∧ endCol c (newLine ++ w) ≤ 7 + w.length := by
  have e : newLine ++ w = 10 :: (spaces 7 ++ w) := rfl
  rw [e, narrow_cons, endCol_cons, if_pos rfl, if_pos rfl]
  have hs : (spaces 7 ++ w).length = 7 + w.length := by rw [List.length_append, spaces, List.length_replicate]
  have h2 := @endCol_le (spaces 7 ++ w) 0
  exact ⟨⟨hc, narrow_short (by omega)⟩, by omega⟩

theorem width_step {c col : Nat} (h : c ≤ col) {t : List UInt8} (ht : col + t.length ≤ 79) : Narrow c t ∧ endCol c t ≤ col + t.length := by
  have := @endCol_le t c
  exact ⟨narrow_short (by omega), by omega⟩

theorem width_append {c : Nat} {s t : List UInt8} {k : Nat} (h : Narrow c s ∧ endCol c s ≤ k) {k' : Nat}
    (h' : ∀ d, d ≤ k → Narrow d t ∧ endCol d t ≤ k') : Narrow c (s ++ t) ∧ endCol c (s ++ t) ≤ k' := by
  rw [narrow_append, endCol_append]
  exact ⟨⟨h.1, (h' _ h.2).1⟩, (h' _ h.2).2⟩

theorem putWord_laid (col : Nat) (w : List UInt8) : Laid [w] (putWord col w).1 := by
  unfold putWord
  split
  · simpa [newLine, spaces, ascii] using Laid.line (w := w) Laid.nil
  · simpa [ascii] using Laid.blank (w := w) Laid.nil

theorem putWord_width {c col : Nat} (h : c ≤ col) (hc : col ≤ 79) {w : List UInt8} (hw : w.length ≤ 72) :
    (Narrow c (putWord col w).1 ∧ endCol c (putWord col w).1 ≤ (putWord col w).2) ∧ (putWord col w).2 ≤ 79 := by
  unfold putWord
  split
  · exact ⟨newLine_width (by omega) w hw, by show 7 + w.length ≤ 79; omega⟩
  · have := width_step h (t := ascii " " ++ w) (by simp [ascii]; omega)
    refine ⟨⟨this.1, ?_⟩, by show col + (1 + w.length) ≤ 79; omega⟩
    have h2 := this.2
    simp only [List.length_append, show (ascii " ").length = 1 from rfl] at h2
    exact h2

theorem varLabel_eq (e : UEntry) : varLabel e = labelOf e := by
  unfold varLabel labelOf
  cases e.label <;> rfl

/-- The options that have a value, and the arguments. -/
def Spec.valued (args : List UEntry) : List UEntry := (optsOf args).filter fun e => hasArg e.ty

theorem valued_cons (e : UEntry) (es : List UEntry) : valued (e :: es) =
    if e.short = argvLast then [] else if orEntry e.toAEntry then valued es else if !hasArg e.ty then valued es else e :: valued es := by
  unfold valued
  rw [optsOf_cons]
  split
  · rfl
  · split
    · rfl
    · rw [List.filter_cons]
      cases hasArg e.ty <;> rfl

theorem letters_cons (e : UEntry) (es : List UEntry) : flagLetters (e :: es) =
    if e.short = argvLast then [] else if orEntry e.toAEntry then flagLetters es else if hasArg e.ty then flagLetters es
    else if e.short = 0 then flagLetters es else e.short :: flagLetters es := by
  unfold flagLetters
  rw [optsOf_cons]
  split
  · rfl
  · split
    · rfl
    · rw [List.filter_cons]
      cases hasArg e.ty
      · by_cases h0 : e.short = 0
        · simp [h0]
        · simp [h0]
      · rfl

theorem last_tail {e : UEntry} {es : List UEntry} (h1 : ¬ e.short = argvLast) (hl : ∃ x ∈ e :: es, x.short = argvLast) :
    ∃ x ∈ es, x.short = argvLast := by
  obtain ⟨x, hx, h⟩ := hl
  rcases List.mem_cons.mp hx with rfl | hx
  · exact absurd h h1
  · exact ⟨x, hx, h⟩

theorem valueLoop_text : ∀ {args : List UEntry} (col : Nat), (∃ e ∈ args, e.short = argvLast) →
    ∃ t, valueLoop args col = ok t ∧ Laid ((valued args).flatMap valueWords) t ∧
      ((∀ w ∈ (valued args).flatMap valueWords, w.length ≤ 72) → col ≤ 79 → ∀ c ≤ col, Narrow c t ∧ endCol c t ≤ 79) := by
  intro args
  induction args with
  | nil => rintro col ⟨e, h, -⟩; cases h
  | cons e es ih =>
    intro col hl
    unfold valueLoop
    rw [valued_cons]
    by_cases h1 : e.short = argvLast
    · rw [if_pos h1, if_pos h1]
      exact ⟨[], rfl, .nil, fun _ hc c h => ⟨show c ≤ 79 by omega, show c ≤ 79 by omega⟩⟩
    · rw [if_neg h1, if_neg h1]
      have hl' := last_tail h1 hl
      by_cases h2 : orEntry e.toAEntry = true
      · rw [if_pos h2, if_pos h2]
        exact ih col hl'
      · rw [if_neg h2, if_neg h2]
        by_cases h3 : (!hasArg e.ty) = true
        · rw [if_pos h3, if_pos h3]
          exact ih col hl'
        · rw [if_neg h3, if_neg h3, varLabel_eq, List.flatMap_cons]
          unfold valueWords
          by_cases hm : e.short = argvMand
          · rw [if_pos hm, if_pos hm]
            obtain ⟨t, e1, e2, e3⟩ := ih (putWord col (labelOf e)).2 hl'
            dsimp only
            rw [e1]
            refine ⟨_, rfl, laid_append (putWord_laid _ _) e2, fun hw hc c h => ?_⟩
            have p := putWord_width h hc (hw (labelOf e) (by simp))
            exact width_append p.1 (e3 (fun w h => hw w (List.mem_append_right _ h)) p.2)
          · rw [if_neg hm, if_neg hm]
            by_cases hy : e.short = argvMaybe
            · rw [if_pos hy, if_pos hy]
              obtain ⟨t, e1, e2, e3⟩ := ih (putWord col (ascii "[" ++ labelOf e ++ ascii "]")).2 hl'
              dsimp only
              rw [e1]
              refine ⟨_, rfl, laid_append (putWord_laid _ _) e2, fun hw hc c h => ?_⟩
              have p := putWord_width h hc (hw (ascii "[" ++ labelOf e ++ ascii "]") (by simp))
              exact width_append p.1 (e3 (fun w h => hw w (List.mem_append_right _ h)) p.2)
            · rw [if_neg hy, if_neg hy]
              dsimp only
              obtain ⟨t, e1, e2, e3⟩ := ih (putWord (putWord col (ascii "[-" ++ [e.short])).2 (labelOf e ++ ascii "]")).2 hl'
              rw [e1]
              refine ⟨_, rfl, ?_, fun hw hc c h => ?_⟩
              · exact laid_append (a := [_, _]) (laid_append (a := [_]) (b := [_]) (putWord_laid _ _) (putWord_laid _ _)) e2
              · have p := putWord_width h hc (hw (ascii "[-" ++ [e.short]) (by simp))
                have hb : (labelOf e ++ ascii "]").length ≤ 72 := hw _ (by simp)
                rw [List.append_assoc]
                refine width_append p.1 fun d hd => ?_
                have q := putWord_width hd p.2 hb
                exact width_append q.1 (e3 (fun w h => hw w (List.mem_append_right _ h)) q.2)

/-- A group of flags. -/
def Spec.group (g : List UInt8) : List UInt8 := ascii "[-" ++ g ++ ascii "]"

theorem flagLoop_text : ∀ {args : List UEntry} (mark : Bool) (col : Nat), (∃ e ∈ args, e.short = argvLast) →
    ∃ t mark' col', flagLoop args mark col = ok (t, mark', col') ∧
      (mark = true → mark' = true ∧ ∃ (g : List UInt8) (gs : List (List UInt8)) (s : List UInt8), t ++ ascii "]" = g ++ ascii "]" ++ s ∧ Laid (gs.map group) s ∧ (∀ x ∈ gs, x ≠ []) ∧
        flagLetters args = g ++ gs.flatten) ∧
      (mark = false → ∃ (gs : List (List UInt8)) (s : List UInt8), t ++ (if mark' then ascii "]" else []) = s ∧ Laid (gs.map group) s ∧ (∀ x ∈ gs, x ≠ []) ∧
        flagLetters args = gs.flatten) ∧
      (col ≤ (if mark then 78 else 79) → col' ≤ (if mark' then 78 else 79) ∧ ∀ c ≤ col, Narrow c t ∧ endCol c t ≤ col') := by
  intro args
  induction args with
  | nil => rintro _ _ ⟨e, h, -⟩; cases h
  | cons e es ih =>
    intro mark col hl
    unfold flagLoop
    rw [letters_cons]
    by_cases h1 : e.short = argvLast
    · rw [if_pos h1, if_pos h1]
      refine ⟨[], mark, col, rfl, fun hm => ⟨hm, [], [], [], rfl, .nil, by simp, rfl⟩, fun hm => ⟨[], [], by rw [hm]; rfl, .nil, by simp, rfl⟩,
        fun h => ⟨h, fun c hc => ⟨?_, hc⟩⟩⟩
      show c ≤ 79
      cases mark
      · exact Nat.le_trans hc h
      · have : col ≤ 78 := h
        omega
    · rw [if_neg h1, if_neg h1]
      have hl' := last_tail h1 hl
      by_cases h2 : orEntry e.toAEntry = true
      · rw [if_pos h2, if_pos h2]; exact ih mark col hl'
      · rw [if_neg h2, if_neg h2]
        by_cases h3 : hasArg e.ty = true
        · rw [if_pos h3, if_pos h3]; exact ih mark col hl'
        · rw [if_neg h3, if_neg h3]
          by_cases h4 : e.short = 0
          · rw [if_pos h4, if_pos h4]; exact ih mark col hl'
          · rw [if_neg h4, if_neg h4]
            dsimp only
            cases mark with
            | false =>
              by_cases hw : col + 3 > 77
              · simp only [if_neg (show ¬ false = true by decide), if_pos hw]
                rw [if_neg (show ¬ 9 + 1 > 78 by decide)]
                obtain ⟨t, m', c', f1, f2, -, f4⟩ := ih true (9 + 1) hl'
                obtain ⟨rfl, g, gs, s, s1, s2, s3, s4⟩ := f2 rfl
                rw [f1]
                refine ⟨_, _, _, rfl, fun h => (by cases h), fun _ => ⟨(e.short :: g) :: gs, _, rfl, ?_, ?_, by rw [s4]; rfl⟩, fun hc => ?_⟩
                · have := Laid.line (w := group (e.short :: g)) s2
                  rw [List.map_cons]
                  have hx : (newLine ++ ascii "[-" ++ [] ++ [e.short] ++ t) ++ (if true = true then ascii "]" else []) =
                      [10] ++ List.replicate 7 32 ++ group (e.short :: g) ++ s := by
                    rw [if_pos rfl]
                    calc (newLine ++ ascii "[-" ++ [] ++ [e.short] ++ t) ++ ascii "]"
                        = newLine ++ ascii "[-" ++ [e.short] ++ (t ++ ascii "]") := by simp
                      _ = _ := by rw [s1]; simp [group, newLine, spaces, ascii]
                  rw [hx]; exact this
                · intro x hx
                  rcases List.mem_cons.mp hx with rfl | hx
                  · simp
                  · exact s3 x hx
                · have f4 := f4 (by decide)
                  refine ⟨f4.1, fun c h => ?_⟩
                  have hc : col ≤ 79 := hc
                  have n := newLine_width (c := c) (by omega) (ascii "[-" ++ [e.short]) (by simp [ascii])
                  have := width_append n f4.2
                  simpa [List.append_assoc] using this
              · simp only [if_neg (show ¬ false = true by decide), if_neg hw]
                rw [if_neg (show ¬ col + 3 + 1 > 78 by omega)]
                obtain ⟨t, m', c', f1, f2, -, f4⟩ := ih true (col + 3 + 1) hl'
                obtain ⟨rfl, g, gs, s, s1, s2, s3, s4⟩ := f2 rfl
                dsimp only
                rw [f1]
                refine ⟨_, _, _, rfl, fun h => (by cases h), fun _ => ⟨(e.short :: g) :: gs, _, rfl, ?_, ?_, by rw [s4]; rfl⟩, fun hc => ?_⟩
                · have := Laid.blank (w := group (e.short :: g)) s2
                  rw [List.map_cons]
                  have hx : (ascii " [-" ++ [] ++ [e.short] ++ t) ++ (if true = true then ascii "]" else []) =
                      [32] ++ group (e.short :: g) ++ s := by
                    rw [if_pos rfl]
                    calc (ascii " [-" ++ [] ++ [e.short] ++ t) ++ ascii "]"
                        = ascii " [-" ++ [e.short] ++ (t ++ ascii "]") := by simp
                      _ = _ := by rw [s1]; simp [group, ascii]
                  rw [hx]; exact this
                · intro x hx
                  rcases List.mem_cons.mp hx with rfl | hx
                  · simp
                  · exact s3 x hx
                · have f4 := f4 (show col + 3 + 1 ≤ 78 by omega)
                  refine ⟨f4.1, fun c h => ?_⟩
                  have n := width_step h (t := ascii " [-" ++ [e.short]) (by simp [ascii]; omega)
                  have := width_append n (t := t) (fun d hd => f4.2 d (by simp [ascii] at hd; omega))
                  simpa [List.append_assoc] using this
            | true =>
              simp only [if_true]
              by_cases hw : col + 1 > 78
              · rw [if_pos hw]
                dsimp only
                obtain ⟨t, m', c', f1, f2, -, f4⟩ := ih true (9 + 1) hl'
                obtain ⟨rfl, g, gs, s, s1, s2, s3, s4⟩ := f2 rfl
                rw [f1]
                refine ⟨_, _, _, rfl, fun _ => ⟨rfl, [], (e.short :: g) :: gs, _, ?_, Laid.line (w := group (e.short :: g)) s2, ?_, by rw [s4]; rfl⟩,
                  fun h => (by cases h), fun hc => ?_⟩
                · calc ([] ++ (ascii "]" ++ newLine ++ ascii "[-") ++ [e.short] ++ t) ++ ascii "]"
                      = ascii "]" ++ newLine ++ ascii "[-" ++ [e.short] ++ (t ++ ascii "]") := by simp
                    _ = _ := by rw [s1]; simp [group, newLine, spaces, ascii]
                · intro x hx
                  rcases List.mem_cons.mp hx with rfl | hx
                  · simp
                  · exact s3 x hx
                · have f4 := f4 (by decide)
                  refine ⟨f4.1, fun c h => ?_⟩
                  have hc : col ≤ 78 := hc
                  have n := width_append (width_step h (t := ascii "]") (by simp [ascii]; omega)) (t := newLine ++ (ascii "[-" ++ [e.short])) (k' := 10)
                    (fun d hd => newLine_width (by simp [ascii] at hd; omega) (ascii "[-" ++ [e.short]) (by simp [ascii]))
                  have := width_append n f4.2
                  simpa [List.append_assoc] using this
              · rw [if_neg hw]
                dsimp only
                obtain ⟨t, m', c', f1, f2, -, f4⟩ := ih true (col + 1) hl'
                obtain ⟨rfl, g, gs, s, s1, s2, s3, s4⟩ := f2 rfl
                rw [f1]
                refine ⟨_, _, _, rfl, fun _ => ⟨rfl, e.short :: g, gs, s, ?_, s2, s3, by rw [s4]; rfl⟩, fun h => (by cases h), fun hc => ?_⟩
                · calc ([] ++ [] ++ [e.short] ++ t) ++ ascii "]" = [e.short] ++ (t ++ ascii "]") := by simp
                    _ = _ := by rw [s1]; simp
                · have f4 := f4 (show col + 1 ≤ 78 by omega)
                  refine ⟨f4.1, fun c h => ?_⟩
                  have n := width_step h (t := [e.short]) (by simp; omega)
                  have := width_append n (t := t) f4.2
                  simpa [List.append_assoc] using this

/-- **C121.** The short message is the name of the program and then, each behind a blank or on a new line, groups of the letters of
all flags and the words for every option with a value and every argument, in the order of the array. -/
theorem C121_short (prog : List UInt8) {args : List UEntry} (hl : ∃ e ∈ args, e.short = argvLast) (flag : Nat) :
    ∃ (gs : List (List UInt8)) (s : List UInt8), usageShort prog args flag = ok (ascii "Usage: " ++ prog ++ s ++ [10] ++
        (if flag = 5 then List.replicate 7 32 ++ ascii "Use the '--usage' argument for more assistance.\n" else [])) ∧
      Laid (gs.map group ++ (valued args).flatMap valueWords) s ∧ gs.flatten = flagLetters args ∧ (∀ g ∈ gs, g ≠ []) ∧
      (prog.length ≤ 72 → (∀ w ∈ (valued args).flatMap valueWords, w.length ≤ 72) → Narrow 0 (ascii "Usage: " ++ prog ++ s)) := by
  obtain ⟨t, m', c', f1, -, f3, f4⟩ := flagLoop_text false (7 + prog.length) hl
  obtain ⟨gs, s, s1, s2, s3, s4⟩ := f3 rfl
  obtain ⟨v, v1, v2, v3⟩ := valueLoop_text (if m' then c' + 1 else c') hl
  refine ⟨gs, s ++ v, ?_, laid_append s2 v2, s4.symm, s3, fun hp hw => ?_⟩
  · unfold usageShort
    rw [f1]
    simp only [ok_bind]
    rw [v1]
    simp only [ok_bind]
    rw [← s1]
    simp [spaces, ascii]
  · obtain ⟨g1, g2⟩ := f4 (show 7 + prog.length ≤ 79 by omega)
    have h0 := width_step (Nat.le_refl 0) (t := ascii "Usage: " ++ prog) (by simp [ascii]; omega)
    have hx : 0 + (ascii "Usage: " ++ prog).length = 7 + prog.length := by simp [ascii]; omega
    rw [hx] at h0
    have h1 := width_append h0 g2
    have h2 : Narrow 0 (ascii "Usage: " ++ prog ++ t ++ if m' = true then ascii "]" else []) ∧
        endCol 0 (ascii "Usage: " ++ prog ++ t ++ if m' = true then ascii "]" else []) ≤ if m' then c' + 1 else c' := by
      refine width_append h1 fun d hd => ?_
      cases m' with
      | true => exact width_step hd (t := ascii "]") (show c' + 1 ≤ 79 by have : c' ≤ 78 := g1; omega)
      | false => exact ⟨show d ≤ 79 by have : c' ≤ 79 := g1; omega, hd⟩
    have h3 := width_append h2 (v3 hw (by cases m' with
      | true => show c' + 1 ≤ 79; have : c' ≤ 78 := g1; omega
      | false => exact g1))
    rw [← s1]
    simpa only [List.append_assoc] using h3.1

/-- **C121, violated: options that have only a long name.** If they are flags, the short message does not mention them; if they have a
value, it has a NUL in the place of the name. -/
theorem C121_short_violated (prog : List UInt8) {e : UEntry} (h0 : e.short = 0) (es : List UEntry) (flag : Nat) :
    (hasArg e.ty = false → usageShort prog (e :: es) flag = usageShort prog es flag) ∧
    (hasArg e.ty = true → ∀ t, usageShort prog (e :: es) flag = ok t → (0 : UInt8) ∈ t) := by
  have n1 : ¬ e.short = argvLast := by rw [h0]; decide
  have n2 : ¬ orEntry e.toAEntry = true := by unfold orEntry; rw [h0]; decide
  refine ⟨fun ha => ?_, fun ha t ht => ?_⟩
  · have a1 : ∀ m c, flagLoop (e :: es) m c = flagLoop es m c := by
      intro m c
      rw [flagLoop, if_neg n1, if_neg n2, if_neg (by simp [ha]), if_pos h0]
    have a2 : ∀ c, valueLoop (e :: es) c = valueLoop es c := by
      intro c
      rw [valueLoop, if_neg n1, if_neg n2, if_pos (by simp [ha])]
    unfold usageShort
    simp only [a1, a2]
  · unfold usageShort at ht
    obtain ⟨f, -, ht⟩ := bind_eq_ok.mp ht
    obtain ⟨v, hv, ht⟩ := bind_eq_ok.mp ht
    cases ht
    unfold valueLoop at hv
    rw [if_neg n1, if_neg n2, if_neg (by simp [ha]), if_neg (by rw [h0]; decide), if_neg (by rw [h0]; decide)] at hv
    dsimp only at hv
    obtain ⟨r, -, hv⟩ := bind_eq_ok.mp hv
    cases hv
    have key : ∀ c, (0 : UInt8) ∈ (putWord c (ascii "[-" ++ [e.short])).1 := by
      intro c
      unfold putWord
      rw [h0]
      split <;> simp
    simp only [List.mem_append]
    exact .inl (.inl (.inr (.inl (.inl (key _)))))

/-- **C121.** `argv_usage` writes the message that is asked for, or the one that is set; without an array only the name of the program. -/
theorem C121_choice (prog : List UInt8) (usageType : Nat) (args : List UEntry) :
    argvUsage prog usageType (some args) 1 = usageShort prog args 1 ∧
    argvUsage prog usageType (some args) 2 = usageLong prog args ∧
    (∀ which, which ≠ 1 → which ≠ 2 → which ≠ 6 → argvUsage prog usageType (some args) which = doUsage prog args usageType) ∧
    (∀ t, argvUsage prog usageType (some args) 6 = ok t → ∃ l, usageLong prog args = ok l ∧ l <+: t) ∧
    argvUsage prog usageType none 1 = ok (ascii "Usage: " ++ prog ++ [10]) ∧
    argvUsage prog usageType none 2 = ok (ascii "Usage: " ++ prog ++ [10]) := by
  refine ⟨rfl, rfl, fun w h1 h2 h6 => ?_, fun t h => ?_, ?_, ?_⟩
  · unfold argvUsage
    dsimp only
    rw [if_neg (by omega)]; rfl
  · change (usageLong prog args >>= fun t => ok (t ++ usageHints)) = ok t at h
    obtain ⟨l, h1, h2⟩ := bind_eq_ok.mp h
    cases h2
    exact ⟨l, h1, _, rfl⟩
  · change usageShort prog _ 1 = _
    unfold usageShort
    simp [flagLoop, valueLoop, argvLast, ascii]
  · change usageLong prog _ = _
    unfold usageLong
    simp [uLongLoop, argvLast, ascii]

/-- The words that ask for a message, and what they are for. -/
def Spec.messageWords : List (String × String) :=
  [("usage", "for default usage information"), ("usage-short", "for short usage information"), ("usage-long", "for long usage information"),
   ("usage-all", "for all usage information"), ("help", "to display the help message"), ("version", "to display the version message"),
   ("argv-display", "to display the options and their values")]

/-- **C121.** The message that is set: nothing (0), the short one (1), the long one (2), a pointer to `--usage` (4), the short one with such a pointer
(5; see `C121_short`), the long one with a line for each of the seven words that ask for a message (6). -/
theorem C121_set (prog : List UInt8) (args : List UEntry) (which : Nat) (h1 : which ≠ 1) (h2 : which ≠ 2) (h6 : which ≠ 6) :
    argvUsage prog 0 (some args) which = ok [] ∧ argvUsage prog 1 (some args) which = usageShort prog args 1 ∧
    argvUsage prog 2 (some args) which = usageLong prog args ∧
    argvUsage prog 4 (some args) which = ok (List.replicate 7 32 ++ ascii "Use the '--usage' argument for assistance." ++ [10]) ∧
    argvUsage prog 5 (some args) which = usageShort prog args 5 ∧
    (argvUsage prog 6 (some args) which = usageLong prog args >>= fun l =>
      ok (l ++ [10] ++ Spec.messageWords.flatMap fun w => ascii "Use '--" ++ ascii w.1 ++ ascii "' " ++ ascii w.2 ++ ascii "." ++ [10])) := by
  have key : ∀ t, argvUsage prog t (some args) which = doUsage prog args t := by
    intro t; unfold argvUsage; dsimp only; rw [if_neg (by omega)]; rfl
  rw [key, key, key, key, key, key]
  have hs : spaces 7 ++ ascii "Use the '--usage' argument for assistance.\n" =
      List.replicate 7 32 ++ ascii "Use the '--usage' argument for assistance." ++ [10] := by decide +kernel
  have hh : usageHints = [10] ++ Spec.messageWords.flatMap fun w => ascii "Use '--" ++ ascii w.1 ++ ascii "' " ++ ascii w.2 ++ ascii "." ++ [10] := by
    decide +kernel
  refine ⟨rfl, rfl, rfl, ?_, rfl, ?_⟩
  · rw [← hs]; rfl
  · have : ∀ l, l ++ [10] ++ (Spec.messageWords.flatMap fun w => ascii "Use '--" ++ ascii w.1 ++ ascii "' " ++ ascii w.2 ++ ascii "." ++ [10]) = l ++ usageHints :=
      fun l => by rw [hh]; exact List.append_assoc _ _ _
    rw [show (fun l => ok (l ++ [10] ++ (Spec.messageWords.flatMap fun w => ascii "Use '--" ++ ascii w.1 ++ ascii "' " ++ ascii w.2 ++ ascii "." ++ [10]))) =
      fun l => ok (l ++ usageHints) from funext fun l => congrArg ok (this l)]
    rfl

/-- An array: a flag, an option with a value, an option with only a long name, an argument, `ARGV_LAST`. -/
def usageGrid : List UEntry :=
  [⟨⟨ascii "v" |>.headD 0, some (ascii "verbose"), 1, false, false, false, none⟩, none, some (ascii "be verbose")⟩,
   ⟨⟨ascii "o" |>.headD 0, some (ascii "output-file-name"), 5, false, false, false, none⟩, some (ascii "file"), some (ascii "where to write")⟩,
   ⟨⟨0, some (ascii "quick"), 1, false, false, false, none⟩, none, none⟩,
   ⟨⟨argvMand, none, 5, false, false, false, none⟩, some (ascii "input"), some (ascii "what to read")⟩,
   ⟨⟨argvLast, none, 0, false, false, false, none⟩, none, none⟩]

theorem usageGrid_roomy : ∀ e ∈ optsOf usageGrid, Roomy e := by
  intro e he
  have h : optsOf usageGrid = usageGrid.take 4 := by decide
  rw [h] at he
  simp only [usageGrid, List.take, List.mem_cons, List.not_mem_nil, or_false] at he
  rcases he with rfl | rfl | rfl | rfl
  · exact ⟨fun h => absurd h (by decide), fun h => absurd h (by decide)⟩
  · exact ⟨fun h => absurd h (by decide), fun h => absurd h (by decide)⟩
  · exact ⟨fun _ h => absurd h.1 (by decide), fun h => absurd h (by decide)⟩
  · exact ⟨fun h => absurd h (by decide), fun _ h => absurd rfl h⟩

/-- Both messages for it. -/
example : usageShort (ascii "prog") usageGrid 1 = ok (ascii "Usage: prog [-v] [-o file] input\n") ∧
    usageLong (ascii "prog") usageGrid = ok (ascii "Usage: prog\n[-v]              or --verbose    be verbose\n[-o file]         or --output-fil where to write\n[--quick]\ninput                             what to read\n") := by
  decide +kernel

example : usageLong (ascii "prog") usageGrid = ok (ascii "Usage: " ++ ascii "prog" ++ [10] ++ (optsOf usageGrid).flatMap usageLine) :=
  C121_long_partial _ ⟨_, List.mem_of_getElem? (show usageGrid[4]? = some _ from rfl), rfl⟩ usageGrid_roomy

/-- An option as in `C121_width_violated`. -/
example : ∃ e : UEntry, e.short = 0 ∧ Labelled e.ty ∧ (∃ n, e.long = some n ∧ 30 ≤ n.length ∧ (10 : UInt8) ∉ n) ∧ ¬ Narrow 0 (longLine e) :=
  ⟨⟨⟨0, some (List.replicate 30 97), 5, false, false, false, none⟩, some (ascii "value"), some (List.replicate 45 98)⟩, rfl, by decide,
    ⟨_, rfl, by decide, by decide⟩,
    (C121_width_violated rfl (by decide) rfl (by decide) rfl rfl (by decide) (by decide)).2⟩

end Wdns
