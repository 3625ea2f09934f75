import Verif.Props.ArgvAccept
import Verif.Props.Atomic
import Verif.Lemmas.NumGrammar

/-!
# Properties of command lines: what the texts of values mean — C114
-/

namespace Wdns
open Outcome Spec

/-! ### Specification -/

/-- The text begins with the number `n` in decimal, perhaps with a sign, and `rest` is what follows the digits. -/
def Spec.Number (t : List UInt8) (n : Int) (rest : List UInt8) : Prop :=
  ∃ sg ds, t = sg ++ ds ++ rest ∧ ds ≠ [] ∧ (∀ c ∈ ds, IsDigit c) ∧ (∀ c, rest.head? = some c → ¬ IsDigit c) ∧
    ((sg = [] ∨ sg = ascii "+") ∧ n = decVal ds ∨ sg = ascii "-" ∧ n = -(decVal ds : Int))

/-- The values that a type of numbers can hold: `short`, `unsigned short`, `int`, `unsigned int`, `long`, `unsigned long` (up to
the largest `long`), the counter, which is an `int`. -/
def Spec.range : Nat → Option (Int × Int)
  | 6 => some (-2 ^ 15, 2 ^ 15 - 1)
  | 7 => some (0, 2 ^ 16 - 1)
  | 8 => some (-2 ^ 31, 2 ^ 31 - 1)
  | 9 => some (0, 2 ^ 32 - 1)
  | 10 => some (-2 ^ 63, 2 ^ 63 - 1)
  | 11 => some (0, 2 ^ 63 - 1)
  | 17 => some (-2 ^ 31, 2 ^ 31 - 1)
  | _ => none

/-- What a unit behind a size stands for. -/
def Spec.unit (rest : List UInt8) (u : Int) : Prop :=
  (rest = [] ∧ u = 1) ∨ (∃ c x, rest = c :: x ∧ ((c = 107 ∨ c = 75) ∧ u = 2 ^ 10 ∨ (c = 109 ∨ c = 77) ∧ u = 2 ^ 20 ∨
    (c = 103 ∨ c = 71) ∧ u = 2 ^ 30))

/-- The text `t` denotes the value `v` of a type. -/
inductive Spec.IsValue : Nat → List UInt8 → AVal → Prop
  /-- truth values: whatever begins with `t`, `T`, `y`, `Y` or `1` is true -/
  | yes (ty : Nat) (h : ty ∈ [1, 2, 3, 20, 21, 22]) (c : UInt8) (t : List UInt8) (hc : c ∈ ascii "tTyY1") :
      Spec.IsValue ty (c :: t) (.num 1)
  | no (ty : Nat) (h : ty ∈ [1, 2, 3, 20, 21, 22]) (t : List UInt8) (ht : ∀ c, t.head? = some c → c ≠ 0 ∧ c ∉ ascii "tTyY1") :
      Spec.IsValue ty t (.num 0)
  | char (c : UInt8) (t : List UInt8) : Spec.IsValue 4 (c :: t) (.chr c)
  | text (t : List UInt8) : Spec.IsValue 5 t (.str (some t))
  | number (ty : Nat) (lo hi n : Int) (h : Spec.range ty = some (lo, hi)) (h1 : lo ≤ n) (h2 : n ≤ hi) (t rest : List UInt8)
      (hn : Spec.Number t n rest) : Spec.IsValue ty t (.num n)
  | base (ty b : Nat) (h : (ty = 14 ∧ b = 2) ∨ (ty = 15 ∧ b = 8) ∨ (ty = 16 ∧ b = 16)) (t : List UInt8) (hn : Spec.inBase b t < 2 ^ 31) :
      Spec.IsValue ty t (.num (Spec.inBase b t))
  | size (n u : Int) (t rest : List UInt8) (hn : Spec.Number t n rest) (hu : Spec.unit rest u) (h0 : -2 ^ 63 ≤ n ∧ n ≤ 2 ^ 63 - 1)
      (h1 : -2 ^ 63 ≤ n * u) (h2 : n * u ≤ 2 ^ 63 - 1) : Spec.IsValue 18 t (.num (n * u))
  | usize (n u : Int) (t rest : List UInt8) (hn : Spec.Number t n rest) (hu : Spec.unit rest u) (h0 : 0 ≤ n ∧ n ≤ 2 ^ 63 - 1)
      (h2 : n * u ≤ 2 ^ 64 - 1) : Spec.IsValue 19 t (.num (n * u))

/-! ### Proof -/

theorem strtol_number {t rest : List UInt8} {n : Int} (h : Spec.Number t n rest) (h1 : -2 ^ 63 ≤ n) (h2 : n ≤ 2 ^ 63 - 1) :
    (strtol t).1 = n := by
  obtain ⟨sg, ds, rfl, hne, hd, hr, hs⟩ := h
  have hscan := scanDigits_dec rest hr ds 0 false hd (.inr hne)
  have hval : ds.foldl (fun v b => 10 * v + digitVal b) 0 = decVal ds := rfl
  rw [hval] at hscan
  have eP : ascii "+" = [43] := by decide
  have eM : ascii "-" = [45] := by decide
  rw [eP, eM] at hs
  unfold strtol scanInt
  rcases hs with ⟨rfl | rfl, hn⟩ | ⟨rfl, hn⟩
  · cases ds with
    | nil => exact absurd rfl hne
    | cons c ds =>
      have hc := hd c (by simp)
      have hsp : isSpace c = false := by unfold IsDigit at hc; simp only [isSpace, decide_eq_false_iff_not]; rw [← UInt8.toNat_inj]; simp; omega
      have hne1 : c ≠ 45 := by rintro rfl; unfold IsDigit at hc; simp at hc
      have hne2 : c ≠ 43 := by rintro rfl; unfold IsDigit at hc; simp at hc
      rw [List.nil_append, List.cons_append, List.dropWhile_cons_of_neg (by simp [hsp])]
      rw [List.cons_append] at hscan
      simp only [hne1, hne2, if_false, hscan, Option.map_some, Bool.false_eq_true]
      rw [hn]
      rw [hn] at h2
      omega
  · rw [List.append_assoc, List.singleton_append, List.dropWhile_cons_of_neg (by decide)]
    simp only [show ¬ ((43 : UInt8) = 45) by decide, if_true, if_false, hscan, Option.map_some, Bool.false_eq_true]
    rw [hn]
    rw [hn] at h2
    omega
  · rw [List.append_assoc, List.singleton_append, List.dropWhile_cons_of_neg (by decide)]
    simp only [if_true, hscan, Option.map_some]
    rw [hn]
    rw [hn] at h1
    omega

theorem sizeUnit_number {t rest : List UInt8} {n u : Int} (h : Spec.Number t n rest) (hu : Spec.unit rest u) : sizeUnit t = u := by
  obtain ⟨sg, ds, rfl, hne, hd, hr, hs⟩ := h
  have hdrop : (sg ++ ds ++ rest).dropWhile sizeSkip = rest.dropWhile sizeSkip := by
    apply List.dropWhile_append_of_pos
    intro c hc
    rw [List.mem_append] at hc
    rcases hc with hc | hc
    · have eP : ascii "+" = [43] := by decide
      have eM : ascii "-" = [45] := by decide
      rw [eP, eM] at hs
      rcases hs with ⟨rfl | rfl, -⟩ | ⟨rfl, -⟩
      · simp at hc
      · simp at hc; subst hc; decide
      · simp at hc; subst hc; decide
    · have := hd c hc
      unfold IsDigit at this
      simp [sizeSkip, this]
  unfold sizeUnit
  dsimp only
  rw [hdrop]
  rcases hu with ⟨rfl, rfl⟩ | ⟨c, x, rfl, h⟩
  · rfl
  · rcases h with ⟨rfl | rfl, rfl⟩ | ⟨rfl | rfl, rfl⟩ | ⟨rfl | rfl, rfl⟩ <;>
      rw [List.dropWhile_cons_of_neg (by decide)] <;> rfl

/-- **C114.** Every text that denotes a value of the type is converted to exactly this value, whatever was there before. -/
theorem C114_value {cfg : ACfg} {ty : Nat} {t : List UInt8} {v : AVal} (h : Spec.IsValue ty t v) (old : AVal) :
    convert cfg ty (some t) old = ok v := by
  cases h with
  | yes _ hty c t hc =>
    have hb : boolText (c :: t) = true := by unfold boolText; simpa using hc
    simp only [List.mem_cons, List.mem_nil_iff, or_false] at hty
    rcases hty with rfl | rfl | rfl | rfl | rfl | rfl <;>
      (show ok (AVal.num (testInt (boolText (c :: t)))) = _; rw [hb]; rfl)
  | no _ hty _ ht =>
    have hb : boolText t = false := by
      unfold boolText
      cases t with
      | nil => decide
      | cons c t => simpa using (ht c rfl).2
    simp only [List.mem_cons, List.mem_nil_iff, or_false] at hty
    rcases hty with rfl | rfl | rfl | rfl | rfl | rfl <;>
      (show ok (AVal.num (testInt (boolText t))) = _; rw [hb]; rfl)
  | char c t => rfl
  | text _ => rfl
  | number _ lo hi n hr h1 h2 _ rest hn =>
    unfold Spec.range at hr
    split at hr <;> cases hr
    · have := strtol_number hn (by omega) (by omega)
      show ok (AVal.num (toSigned 16 (toSigned 32 (strtol t).1))) = _
      rw [this, toSigned_in (w := 32) (by decide) (x := n) ⟨by simp; omega, by simp; omega⟩, toSigned_in (w := 16) (by decide) (x := n) ⟨by simp; omega, by simp; omega⟩]
    · have := strtol_number hn (by omega) (by omega)
      show ok (AVal.num (toSigned 32 (strtol t).1 % 2 ^ 16)) = _
      rw [this, toSigned_in (w := 32) (by decide) (x := n) ⟨by simp; omega, by simp; omega⟩]
      congr 2
      omega
    · have := strtol_number hn (by omega) (by omega)
      show ok (AVal.num (toSigned 32 (strtol t).1)) = _
      rw [this, toSigned_in (w := 32) (by decide) (x := n) ⟨by simp; omega, by simp; omega⟩]
    · have := strtol_number hn (by omega) (by omega)
      show ok (AVal.num (toSigned 32 (strtol t).1 % 2 ^ 32)) = _
      rw [this]
      unfold toSigned
      have := Int.bmod_emod (x := n) (m := 2 ^ 32)
      congr 2
      rw [show ((2 : Int) ^ 32) = ((2 ^ 32 : Nat) : Int) by decide, this]
      omega
    · have := strtol_number hn (by omega) (by omega)
      show ok (AVal.num (strtol t).1) = _
      rw [this]
    · have := strtol_number hn (by omega) (by omega)
      show ok (AVal.num ((strtol t).1 % 2 ^ 64)) = _
      rw [this]
      congr 2
      omega
    · have := strtol_number hn (by omega) (by omega)
      show ok (AVal.num (toSigned 32 (strtol t).1)) = _
      rw [this, toSigned_in (w := 32) (by decide) (x := n) ⟨by simp; omega, by simp; omega⟩]
  | base _ b hb _ hn =>
    rcases hb with ⟨rfl, rfl⟩ | ⟨rfl, rfl⟩ | ⟨rfl, rfl⟩
    · show (baseToInt 2 t >>= fun n => ok (AVal.num n)) = _
      rw [C111_bases 2 (by omega), if_pos hn, ok_bind]
    · show (baseToInt 8 t >>= fun n => ok (AVal.num n)) = _
      rw [C111_bases 8 (by omega), if_pos hn, ok_bind]
    · show (baseToInt 16 t >>= fun n => ok (AVal.num n)) = _
      rw [C111_bases 16 (by omega), if_pos hn, ok_bind]
  | size n u _ rest hn hu h0 h1 h2 =>
    show (if (strtol t).1 * sizeUnit t < -2 ^ 63 ∨ (strtol t).1 * sizeUnit t > 2 ^ 63 - 1 then ub
      else ok (AVal.num ((strtol t).1 * sizeUnit t))) = _
    rw [strtol_number hn (by omega) (by omega), sizeUnit_number hn hu, if_neg (by omega)]
  | usize n u _ rest hn hu h0 h2 =>
    show ok (AVal.num ((strtol t).1 * sizeUnit t % 2 ^ 64)) = _
    have hu0 : 0 ≤ u := by
      rcases hu with ⟨_, rfl⟩ | ⟨c, x, _, h⟩
      · decide
      · rcases h with ⟨_, rfl⟩ | ⟨_, rfl⟩ | ⟨_, rfl⟩ <;> decide
    have := Int.mul_nonneg h0.1 hu0
    rw [strtol_number hn (by omega) (by omega), sizeUnit_number hn hu, Int.emod_eq_of_lt this (by omega)]

theorem forall_snoc {α β : Type} {R : α → β → Prop} : ∀ {xs : List α} {x : α} {vs : List β}, List.Forall₂ R (xs ++ [x]) vs →
    ∃ ws y, vs = ws ++ [y] ∧ List.Forall₂ R xs ws ∧ R x y
  | [], x, _, h => by
    cases h with
    | cons h hn => cases hn; exact ⟨[], _, rfl, .nil, h⟩
  | a :: xs, x, _, h => by
    cases h with
    | cons h hn =>
      obtain ⟨ws, y, rfl, h1, h2⟩ := forall_snoc hn
      exact ⟨_ :: ws, y, rfl, .cons h h1, h2⟩

/-- **C114.** After the texts, a variable holds the value of the last one, and an array those of all of them, in order. -/
theorem C114_variable {cfg : ACfg} {e : AEntry} {ts : List (List UInt8)} {vs : List AVal} (h : List.Forall₂ (Spec.IsValue e.ty) ts vs)
    {v : Option AVar} (ha : Spec.After cfg e (ts.map some) v) :
    v = if e.array then some (.many vs) else match vs.getLast? with | some x => some (.one x) | none => e.var := by
  have key : ∀ (xs : List (Option (List UInt8))) (v : Option AVar), Spec.After cfg e xs v →
      ∀ (ts : List (List UInt8)) (vs : List AVal), List.Forall₂ (Spec.IsValue e.ty) ts vs → xs = ts.map some →
      v = if e.array then some (.many vs) else match vs.getLast? with | some x => some (.one x) | none => e.var := by
    intro xs v h
    induction h with
    | none =>
      intro ts vs hf hts
      have := List.map_eq_nil_iff.mp hts.symm
      subst this
      cases hf
      rfl
    | one ts t old v ha h hv ih =>
      intro ts' vs hf hts
      rcases List.eq_nil_or_concat ts' with rfl | ⟨xs, x, rfl⟩
      · simp at hts
      · simp only [List.concat_eq_append, List.map_append, List.map_cons, List.map_nil] at hts
        obtain ⟨h1, h2⟩ := List.append_inj' hts rfl
        cases h2
        rw [List.concat_eq_append] at hf
        obtain ⟨ws, y, rfl, hw, hy⟩ := forall_snoc hf
        rw [C114_value hy] at hv
        cases hv
        rw [if_neg (by rw [ha]; simp)]
        simp
    | many ts t us v ha h hv ih =>
      intro ts' vs hf hts
      rcases List.eq_nil_or_concat ts' with rfl | ⟨xs, x, rfl⟩
      · simp at hts
      · simp only [List.concat_eq_append, List.map_append, List.map_cons, List.map_nil] at hts
        obtain ⟨h1, h2⟩ := List.append_inj' hts rfl
        cases h2
        rw [List.concat_eq_append] at hf
        obtain ⟨ws, y, rfl, hw, hy⟩ := forall_snoc hf
        rw [C114_value hy] at hv
        cases hv
        have := ih xs ws hw h1
        rw [if_pos ha] at this
        cases this
        rw [if_pos ha]
  exact key _ _ ha ts vs h rfl

/-- **C114.** A flag that is given has the value 1, a negated one 0. -/
theorem C114_flag {cfg : ACfg} {e : AEntry} (he : e.array = false) (n : Nat) {v : Option AVar}
    (h : Spec.After cfg e (List.replicate (n + 1) none) v) :
    (e.ty = 1 ∨ e.ty = 20 → v = some (.one (.num 1))) ∧ (e.ty = 2 ∨ e.ty = 21 → v = some (.one (.num 0))) := by
  rw [List.replicate_succ'] at h
  generalize hx : List.replicate n none ++ [none] = xs at h
  cases h with
  | none => simp at hx
  | one ts' t' old v ha' h hv =>
    obtain ⟨_, h2⟩ := List.append_inj' hx rfl
    cases h2
    constructor
    · rintro (hty | hty) <;> rw [hty] at hv <;> cases hv <;> rfl
    · rintro (hty | hty) <;> rw [hty] at hv <;> cases hv <;> rfl
  | many _ _ _ _ ha' => rw [he] at ha'; cases ha'

/-- **C114.** A counter is as many larger as it is given, if that is in the range of `int`; it is never anything else. -/
theorem C114_counter {cfg : ACfg} {e : AEntry} (he : e.array = false) (hty : e.ty = 17) {d : Int} (hd : e.var = some (.one (.num d)))
    (n : Nat) {v : Option AVar} (h : Spec.After cfg e (List.replicate n none) v) :
    v = some (.one (.num (d + n))) := by
  have key : ∀ (xs : List (Option (List UInt8))) (v : Option AVar), Spec.After cfg e xs v → ∀ n, xs = List.replicate n none →
      v = some (.one (.num (d + n))) := by
    intro xs v h
    induction h with
    | none =>
      intro n hn
      have := congrArg List.length hn
      simp at this
      subst this
      rw [he, hd]
      simp
    | one ts t old v ha h hv ih =>
      intro n hn
      cases n with
      | zero => simp at hn
      | succ n =>
        rw [List.replicate_succ'] at hn
        obtain ⟨h1, h2⟩ := List.append_inj' hn rfl
        cases h2
        have := ih n h1
        cases this
        rw [hty] at hv
        have hv : (if d + n + 1 > 2 ^ 31 - 1 then ub else ok (AVal.num (d + n + 1))) = ok v := hv
        split at hv
        · cases hv
        · cases hv
          congr 3
          push_cast
          omega
    | many _ _ _ _ ha' => rw [he] at ha'; cases ha'
  exact key _ _ h n rfl

/-- Texts and their values: a negative number, one with a sign and something behind it, sizes, truths. -/
example : Spec.IsValue 8 (ascii "-42") (.num (-42)) ∧ Spec.IsValue 7 (ascii "+65535x") (.num 65535) ∧
    Spec.IsValue 18 (ascii "3k") (.num 3072) ∧ Spec.IsValue 3 (ascii "yes") (.num 1) ∧ Spec.IsValue 3 (ascii "no") (.num 0) ∧
    Spec.IsValue 16 (ascii "0xff") (.num 255) := by
  refine ⟨.number 8 _ _ (-42) rfl (by decide) (by decide) _ [] ⟨ascii "-", ascii "42", by decide, by decide, by decide, by simp, .inr ⟨rfl, by decide⟩⟩,
    .number 7 _ _ 65535 rfl (by decide) (by decide) _ (ascii "x") ⟨ascii "+", ascii "65535", by decide, by decide, by decide, ?_, .inl ⟨.inr rfl, by decide⟩⟩,
    .size 3 1024 _ (ascii "k") ⟨[], ascii "3", by decide, by decide, by decide, ?_, .inl ⟨.inl rfl, by decide⟩⟩ (.inr ⟨107, [], by decide, .inl ⟨.inl rfl, by decide⟩⟩)
      (by decide) (by decide) (by decide),
    .yes 3 (by decide) 121 (ascii "es") (by decide), .no 3 (by decide) (ascii "no") ?_, ?_⟩
  · intro c hc
    cases hc
    decide
  · intro c hc
    cases hc
    decide
  · intro c hc
    cases hc
    decide
  · exact .base 16 16 (by decide) (ascii "0xff") (by decide +kernel)

/-- **C114 does not hold for texts that denote no value of the type**: they are accepted all the same.  A word for a number
gives 0, and a number that is too large for a `short` gives another one. -/
theorem C114_checked_violated :
    (argvRun argvGrid [ascii "prog", ascii "-a", ascii "-n", ascii "many", ascii "in"]).noError = true ∧
    ((argvRun argvGrid [ascii "prog", ascii "-a", ascii "-n", ascii "many", ascii "in"]).grid[4]?.bind AEntry.var) = some (.one (.num 0)) ∧
    (argvRun argvGrid [ascii "prog", ascii "-a", ascii "-n", ascii "4294967297", ascii "in"]).noError = true ∧
    ((argvRun argvGrid [ascii "prog", ascii "-a", ascii "-n", ascii "4294967297", ascii "in"]).grid[4]?.bind AEntry.var) = some (.one (.num 1)) ∧
    convert argvCfg 6 (some (ascii "65537")) (.num 0) = ok (.num 1) := by
  decide +kernel

end Wdns
