import Verif.Lemmas.ArgvSafe

/-!
# Properties of command lines: when nothing goes wrong — C108
-/

namespace Wdns
open Outcome

/-! ### Specification -/

/-- How many option characters an argument can have: those behind `-` (and in front of `=`, if values can be written like
that), one if it begins with `--`, none if it does not begin with `-`. -/
def Spec.options (cfg : ACfg) (a : List UInt8) : Nat :=
  if a.take 2 = ascii "--" then 1
  else if a.take 1 = ascii "-" then (if cfg.closeEnable then a.takeWhile (· ≠ 61) else a).length - 1
  else 0

/-- The argument cannot be taken for `--argv-file`, nor for an abbreviation of it. -/
def Spec.NotFile (cfg : ACfg) (a : List UInt8) : Prop :=
  ∀ rest, rest ≠ [] → rest <+: ascii "argv-file" →
    (if cfg.closeEnable then a.takeWhile (· ≠ 61) else a) ≠ ascii "--" ++ rest

/-- The number that a text has in base 2, 8 or 16. -/
def Spec.inBase (b : Nat) (t : List UInt8) : Nat :=
  let t := t.dropWhile isSpace
  let t := if b = 16 ∧ (t.take 2 = ascii "0x" ∨ t.take 2 = ascii "0X") then t.drop 2 else t
  digitsValue b (t.takeWhile (isDigitIn b))

/-- A text is within the range of its type, if it is one of those without a check: a binary, octal or hexadecimal number, a
size, or a number from which up to `k` steps are counted. -/
def Spec.InRange (k ty : Nat) (t : List UInt8) : Prop :=
  (ty = 14 → Spec.inBase 2 t < 2 ^ 31) ∧ (ty = 15 → Spec.inBase 8 t < 2 ^ 31) ∧ (ty = 16 → Spec.inBase 16 t < 2 ^ 31) ∧
  (ty = 17 → atoi t + k ≤ 2 ^ 31 - 1) ∧
  (ty = 18 → -2 ^ 63 ≤ (strtol t).1 * sizeUnit t ∧ (strtol t).1 * sizeUnit t ≤ 2 ^ 63 - 1)

/-- The texts in an argument that can become values: the argument, and what is behind its first `=`. -/
def Spec.texts (a : List UInt8) : List (List UInt8) := [a, (a.dropWhile (· ≠ 61)).drop 1]

/-- The entry has a variable that fits its type; a counter is at least `k` steps from its end. -/
def Spec.HasVariable (k : Nat) (e : AEntry) : Prop :=
  (e.ty = 0 ∨ 22 < e.ty) ∨
  (e.array = true ∧ e.ty ≠ 17 ∧ ∃ vs, e.var = some (.many vs)) ∨
  (e.array = false ∧ ∃ v, e.var = some (.one v) ∧ (e.ty = 17 → ∃ n : Int, v = .num n ∧ n + k ≤ 2 ^ 31 - 1))

/-- An array of entries that can be used: it has an end and one more readable entry, and the variables are there. -/
def Spec.Array (k : Nat) (g : List AEntry) : Prop :=
  lastIdx g + 1 < g.length ∧ ∀ i < lastIdx g, ∀ e, g[i]? = some e → Spec.HasVariable k e ∧ (e.array = true → e.var ≠ none)

/-! ### Numbers -/

theorem foldl_ge (b : Nat) (hb : 1 ≤ b) : ∀ (ds : List UInt8) (n : Nat),
    n ≤ ds.foldl (fun n c => n * b + (hexDigitValue c).getD 0) n
  | [], n => Nat.le_refl n
  | d :: ds, n => by
    rw [List.foldl_cons]
    refine Nat.le_trans ?_ (foldl_ge b hb ds _)
    have : n * 1 ≤ n * b := Nat.mul_le_mul_left n hb
    omega

theorem baseLoop_eq (b : Nat) (hb : b = 2 ∨ b = 8 ∨ b = 16) : ∀ (s : List UInt8) (ret : Nat), ret < 2 ^ 31 →
    baseLoop b s ret =
      if (s.takeWhile (isDigitIn b)).foldl (fun n c => n * b + (hexDigitValue c).getD 0) ret < 2 ^ 31
      then ok ((s.takeWhile (isDigitIn b)).foldl (fun n c => n * b + (hexDigitValue c).getD 0) ret) else ub
  | [], ret, h => by rw [baseLoop]; simp [h]
  | c :: cs, ret, h => by
    rw [baseLoop]
    by_cases hd : isDigitIn b c = true
    · rw [if_pos hd, List.takeWhile_cons_of_pos hd, List.foldl_cons]
      have hv : (hexDigitValue c).getD 0 < b := by
        unfold isDigitIn at hd
        cases hx : hexDigitValue c with
        | none => rw [hx] at hd; cases hd
        | some v => rw [hx] at hd; simpa using hd
      by_cases ho : ret * b > 2 ^ 31 - 1
      · rw [if_pos ho, if_neg]
        have := foldl_ge b (by omega) (cs.takeWhile (isDigitIn b)) (ret * b + (hexDigitValue c).getD 0)
        omega
      · rw [if_neg ho]
        refine baseLoop_eq b hb cs _ ?_
        rcases hb with rfl | rfl | rfl <;> omega
    · rw [if_neg hd, List.takeWhile_cons_of_neg hd]
      simp [h]

theorem base_prefix (s : List UInt8) : (s.getD 0 0 = 48 ∧ (s.getD 1 0 = 120 ∨ s.getD 1 0 = 88)) ↔
    (s.take 2 = ascii "0x" ∨ s.take 2 = ascii "0X") := by
  have e1 : ascii "0x" = [48, 120] := by decide
  have e2 : ascii "0X" = [48, 88] := by decide
  rw [e1, e2]
  cases s with
  | nil => simp
  | cons a s =>
    cases s with
    | nil => simp
    | cons b s =>
      simp
      constructor
      · rintro ⟨h1, h2 | h2⟩
        · exact .inl ⟨h1, h2⟩
        · exact .inr ⟨h1, h2⟩
      · rintro (⟨h1, h2⟩ | ⟨h1, h2⟩)
        · exact ⟨h1, .inl h2⟩
        · exact ⟨h1, .inr h2⟩

/-- **C111.** A text in base 2, 8 or 16 is read as exactly the number it has in that base (from its first character that is
not white space up to the first that is not a digit; with or without `0x` in base 16), if that number is below 2³¹; if not,
the behaviour is undefined: for every text. -/
theorem C111_bases (b : Nat) (hb : b = 2 ∨ b = 8 ∨ b = 16) (t : List UInt8) :
    baseToInt b t = if Spec.inBase b t < 2 ^ 31 then ok (Spec.inBase b t : Int) else ub := by
  unfold baseToInt Spec.inBase
  dsimp only
  rw [baseLoop_eq b hb _ 0 (by decide)]
  simp only [base_prefix]
  unfold digitsValue
  split <;> (split <;> simp only [ok_bind, ub_bind])

/-! ### Safety -/

theorem convert_text {cfg : ACfg} {ty : Nat} (t : List UInt8) (old : AVal) (h14 : ty ≠ 14) (h15 : ty ≠ 15) (h16 : ty ≠ 16)
    (h18 : ty ≠ 18) : ∃ v, convert cfg ty (some t) old = ok v := by
  unfold convert
  split
  all_goals first
    | exact ⟨_, rfl⟩
    | (exfalso; contradiction)
    | (rename_i hx; cases hx)

theorem convert_safe {cfg : ACfg} {k ty : Nat} {t : List UInt8} (h : Spec.InRange k ty t) (old : AVal) :
    ∃ v, convert cfg ty (some t) old = ok v ∧ (ty = 17 → ∃ n : Int, v = .num n ∧ n + k ≤ 2 ^ 31 - 1) := by
  obtain ⟨h14, h15, h16, h17, h18⟩ := h
  by_cases e14 : ty = 14
  · subst e14
    show ∃ v, (baseToInt 2 t >>= fun n => ok (AVal.num n)) = ok v ∧ _
    rw [C111_bases 2 (.inl rfl), if_pos (h14 rfl), ok_bind]
    exact ⟨_, rfl, fun e => by cases e⟩
  by_cases e15 : ty = 15
  · subst e15
    show ∃ v, (baseToInt 8 t >>= fun n => ok (AVal.num n)) = ok v ∧ _
    rw [C111_bases 8 (.inr (.inl rfl)), if_pos (h15 rfl), ok_bind]
    exact ⟨_, rfl, fun e => by cases e⟩
  by_cases e16 : ty = 16
  · subst e16
    show ∃ v, (baseToInt 16 t >>= fun n => ok (AVal.num n)) = ok v ∧ _
    rw [C111_bases 16 (.inr (.inr rfl)), if_pos (h16 rfl), ok_bind]
    exact ⟨_, rfl, fun e => by cases e⟩
  by_cases e18 : ty = 18
  · subst e18
    show ∃ v, (if (strtol t).1 * sizeUnit t < -2 ^ 63 ∨ (strtol t).1 * sizeUnit t > 2 ^ 63 - 1 then ub
      else ok (AVal.num ((strtol t).1 * sizeUnit t))) = ok v ∧ _
    have := h18 rfl
    rw [if_neg (by omega)]
    exact ⟨_, rfl, fun e => by cases e⟩
  by_cases e17 : ty = 17
  · subst e17
    exact ⟨_, rfl, fun _ => ⟨_, rfl, h17 rfl⟩⟩
  obtain ⟨v, hv⟩ := convert_text (cfg := cfg) t old e14 e15 e16 e18
  exact ⟨v, hv, fun e => absurd e e17⟩

theorem convert_flag {cfg : ACfg} {k ty : Nat} (hh : hasArg ty = false) (old : AVal)
    (ho : ty = 17 → ∃ n : Int, old = .num n ∧ n + (k + 1 : Nat) ≤ 2 ^ 31 - 1) :
    ∃ v, convert cfg ty none old = ok v ∧ (ty = 17 → ∃ n : Int, v = .num n ∧ n + k ≤ 2 ^ 31 - 1) := by
  unfold hasArg at hh
  have hh : ty = 1 ∨ ty = 2 ∨ ty = 17 ∨ ty = 20 ∨ ty = 21 := by
    simp at hh
    omega
  rcases hh with rfl | rfl | rfl | rfl | rfl
  · exact ⟨_, rfl, fun e => by cases e⟩
  · exact ⟨_, rfl, fun e => by cases e⟩
  · obtain ⟨n, rfl, hn⟩ := ho rfl
    show ∃ v, (if n + 1 > 2 ^ 31 - 1 then ub else ok (AVal.num (n + 1))) = ok v ∧ _
    rw [if_neg (by omega)]
    exact ⟨_, rfl, fun _ => ⟨_, rfl, by omega⟩⟩
  · exact ⟨_, rfl, fun e => by cases e⟩
  · exact ⟨_, rfl, fun e => by cases e⟩

theorem Spec.HasVariable.mono {k k' : Nat} (hk : k' ≤ k) {e : AEntry} (h : Spec.HasVariable k e) : Spec.HasVariable k' e := by
  rcases h with h | h | ⟨h1, v, h2, h3⟩
  · exact .inl h
  · exact .inr (.inl h)
  · refine .inr (.inr ⟨h1, v, h2, fun e17 => ?_⟩)
    obtain ⟨n, hn, hb⟩ := h3 e17
    exact ⟨n, hn, by omega⟩

theorem Spec.HasVariable.used {k : Nat} {e : AEntry} (h : Spec.HasVariable k e) (b : Bool) :
    Spec.HasVariable k { e with used := b } := h

/-- Reading a text into an entry. -/
theorem stringToValue_text {cfg : ACfg} {k : Nat} {e : AEntry} {t : List UInt8} (h : Spec.HasVariable k e)
    (ht : Spec.InRange k e.ty t) : ∃ r, stringToValue cfg (some t) e = ok r ∧ Spec.HasVariable k r.2 := by
  unfold stringToValue
  by_cases h0 : e.ty = 0 ∨ e.ty > 22
  · rw [if_pos h0]; exact ⟨_, rfl, h⟩
  · rw [if_neg h0]
    rcases h with h | ⟨h1, h2, vs, h3⟩ | ⟨h1, v, h2, h3⟩
    · exact absurd h h0
    · rw [h1, h3]
      dsimp only
      obtain ⟨w, hw, _⟩ := convert_safe (cfg := cfg) ht .junk
      rw [hw, ok_bind]
      exact ⟨_, rfl, .inr (.inl ⟨rfl, h2, _, rfl⟩)⟩
    · rw [h1, h2]
      dsimp only
      obtain ⟨w, hw, hn⟩ := convert_safe (cfg := cfg) ht v
      rw [hw, ok_bind]
      exact ⟨_, rfl, .inr (.inr ⟨rfl, _, rfl, hn⟩)⟩

/-- Giving an entry without an argument. -/
theorem stringToValue_flag {cfg : ACfg} {k : Nat} {e : AEntry} (h : Spec.HasVariable (k + 1) e) (hh : hasArg e.ty = false)
    (ha : e.array = false) : ∃ r, stringToValue cfg none e = ok r ∧ Spec.HasVariable k r.2 := by
  unfold stringToValue
  by_cases h0 : e.ty = 0 ∨ e.ty > 22
  · rw [if_pos h0]; exact ⟨_, rfl, h.mono (by omega)⟩
  · rw [if_neg h0]
    rcases h with h | ⟨h1, _⟩ | ⟨h1, v, h2, h3⟩
    · exact absurd h h0
    · rw [ha] at h1; cases h1
    · rw [h1, h2]
      dsimp only
      obtain ⟨w, hw, hn⟩ := convert_flag (cfg := cfg) hh v h3
      rw [hw, ok_bind]
      exact ⟨_, rfl, .inr (.inr ⟨rfl, _, rfl, hn⟩)⟩

/-- A text that is harmless for every entry of the array. -/
def Spec.Harmless (K : Nat) (g : List AEntry) (t : List UInt8) : Prop :=
  ∀ i < lastIdx g, ∀ e, g[i]? = some e → Spec.InRange K e.ty t

/-- The state while there is room for `k` more options. -/
structure Room (K k : Nat) (g : List AEntry) (s : AState) : Prop where
  core : coresOf s.grid = coresOf g
  vars : ∀ i < lastIdx g, ∀ e, s.grid[i]? = some e → Spec.HasVariable k e
  flags : ∀ i < lastIdx g, ∀ e, s.grid[i]? = some e → e.array = true → hasArg e.ty = true
  queue : ∀ q ∈ s.queue, ∃ i, q = some i ∧ i < lastIdx g
  room : s.queue.length + k ≤ s.cap
  le : k ≤ K

variable {K : Nat} {g : List AEntry} {cfg : ACfg}

theorem Room.mono {k k' : Nat} (hk : k' ≤ k) {s : AState} (h : Room K k g s) : Room K k' g s :=
  ⟨h.core, fun i hi e he => (h.vars i hi e he).mono hk, h.flags, h.queue, by have := h.room; omega, by have := h.le; omega⟩

theorem Room.bad {k : Nat} {s : AState} (h : Room K k g s) : Room K k g { s with okay := false } :=
  ⟨h.core, h.vars, h.flags, h.queue, h.room, h.le⟩

theorem Room.at {k : Nat} {s : AState} (h : Room K k g s) (hg : SpareEntry g) {i : Nat} (hi : i < lastIdx g) :
    ∃ e e', s.grid[i]? = some e ∧ g[i]? = some e' ∧ coreOf e = coreOf e' := by
  unfold SpareEntry at hg
  have hlen := congrArg List.length h.core
  simp [coresOf] at hlen
  have hci := congrArg (fun l => l[i]?) h.core
  simp only [coresOf, List.getElem?_map] at hci
  have e1 : s.grid[i]? = some s.grid[i] := List.getElem?_eq_getElem (by omega)
  have e2 : g[i]? = some g[i] := List.getElem?_eq_getElem (by omega)
  rw [e1, e2] at hci
  simp only [Option.map_some, Option.some.injEq] at hci
  exact ⟨_, _, e1, e2, hci⟩

theorem Room.inRange {k : Nat} {s : AState} (h : Room K k g s) (hg : SpareEntry g) {i : Nat} (hi : i < lastIdx g) {e : AEntry}
    (he : s.grid[i]? = some e) {t : List UInt8} (ht : Spec.Harmless K g t) : Spec.InRange k e.ty t := by
  obtain ⟨e1, e2, h1, h2, h3⟩ := h.at hg hi
  rw [he] at h1
  cases h1
  have hty := congrArg AEntry.ty h3
  have hty : e.ty = e2.ty := hty
  rw [hty]
  obtain ⟨a, b, c, d, f⟩ := ht i hi e2 h2
  exact ⟨a, b, c, fun e17 => by have := d e17; have := h.le; omega, f⟩

/-- Writing one entry. -/
theorem Room.set {k k' : Nat} {s : AState} (h : Room K k g s) (hk : k' ≤ k) {i : Nat} {e e' : AEntry}
    (he : s.grid[i]? = some e) (hc : coreOf e' = coreOf e) (hv : Spec.HasVariable k' e') :
    Room K k' g { s with grid := s.grid.set i e' } := by
  refine ⟨by show coresOf (s.grid.set i e') = _; rw [set_coresOf he hc]; exact h.core, ?_, ?_, h.queue,
    by have := h.room; show s.queue.length + k' ≤ s.cap; omega, by have := h.le; omega⟩
  · intro j hj x hx
    have hx : (s.grid.set i e')[j]? = some x := hx
    rw [List.getElem?_set] at hx
    split at hx
    · split at hx
      · cases hx; exact hv
      · cases hx
    · exact (h.vars j hj x hx).mono hk
  · intro j hj x hx ha
    have hx : (s.grid.set i e')[j]? = some x := hx
    rw [List.getElem?_set] at hx
    split at hx
    · rename_i hij
      split at hx
      · cases hx
        subst hij
        have h1 := congrArg AEntry.array hc
        have h1 : e'.array = e.array := h1
        have h2 := congrArg AEntry.ty hc
        have h2 : e'.ty = e.ty := h2
        rw [h2]
        exact h.flags i hj e he (by rw [← h1]; exact ha)
      · cases hx
    · exact h.flags j hj x hx ha

theorem Room.tail {k : Nat} {s : AState} (h : Room K k g s) (n : Nat) : Room K k g { s with tail := n } :=
  ⟨h.core, h.vars, h.flags, h.queue, h.room, h.le⟩

theorem Room.okay {k : Nat} {s : AState} (h : Room K k g s) (b : Bool) : Room K k g { s with okay := b } :=
  ⟨h.core, h.vars, h.flags, h.queue, h.room, h.le⟩

theorem doArg_safe (hg : SpareEntry g) {k i : Nat} {close : Option (List UInt8)} {s : AState} (h : Room K (k + 1) g s)
    (hi : i < lastIdx g) (hc : ∀ t, close = some t → Spec.Harmless K g t) :
    ∃ s', doArg cfg i close s = ok s' ∧ Room K k g s' := by
  obtain ⟨e, _, he, _, _⟩ := h.at hg hi
  unfold doArg
  rw [entryAt_ok.mpr he, ok_bind]
  dsimp only
  have h1 : Room K (k + 1) g { s with grid := s.grid.set i { e with used := true } } :=
    h.set (Nat.le_refl _) he rfl (h.vars i hi e he)
  have hsp : SpareEntry (s.grid.set i { e with used := true }) := SpareEntry.core h1.core hg
  obtain ⟨b, hb⟩ := checkOr_total hsp (by rw [lastIdx_core h1.core]; exact hi)
  rw [hb, ok_bind]
  have he1 : (s.grid.set i { e with used := true })[i]? = some { e with used := true } := by
    obtain ⟨hl, _⟩ := List.getElem?_eq_some_iff.mp he
    rw [List.getElem?_set, if_pos rfl, if_pos hl]
  split
  · rename_i hcl
    have : ∃ r, stringToValue cfg close { e with used := true } = ok r ∧ Spec.HasVariable k r.2 := by
      cases close with
      | some t =>
        exact stringToValue_text ((h1.vars i hi _ he1).mono (by omega))
          ((h1.mono (by omega : k ≤ k + 1)).inRange hg hi he1 (hc t rfl))
      | none =>
        have hn : hasArg e.ty = false := by simpa using hcl
        refine stringToValue_flag (h1.vars i hi _ he1) hn ?_
        cases ha : e.array with
        | false => rfl
        | true =>
          have := h.flags i hi e he ha
          rw [hn] at this
          cases this
    obtain ⟨r, hr, hv⟩ := this
    rw [hr, ok_bind]
    obtain ⟨v, hr2⟩ := stringToValue_core hr
    refine ⟨_, rfl, ?_⟩
    have := (h1.set (by omega : k ≤ k + 1) he1 (by rw [hr2]; rfl) hv).okay (s.okay && !(!cfg.multiAccept && e.used && !e.array && e.ty ≠ 17) && !b && r.1)
    exact this
  · have hr := h.room
    rw [if_pos (by omega)]
    refine ⟨_, rfl, h1.core, fun j hj x hx => (h1.vars j hj x hx).mono (by omega), h1.flags, ?_, ?_, by have := h.le; omega⟩
    · intro q hq
      rcases List.mem_append.mp hq with hq | hq
      · exact h.queue q hq
      · rw [List.mem_singleton] at hq
        exact ⟨i, hq, hi⟩
    · show (s.queue ++ [some i]).length + k ≤ s.cap
      simp; omega

theorem number_inRange {K ty : Nat} (t : List UInt8) (h : ty = 6 ∨ ty = 8 ∨ ty = 10 ∨ ty = 12 ∨ ty = 13) : Spec.InRange K ty t := by
  unfold Spec.InRange
  refine ⟨?_, ?_, ?_, ?_, ?_⟩ <;> omega

theorem Room.waiting {k : Nat} {s : AState} (h : Room K k g s) (ht : s.queue.length > s.tail) :
    ∃ i, s.queue[s.tail]? = some (some i) ∧ i < lastIdx g := by
  obtain ⟨i, hi, hl⟩ := h.queue s.queue[s.tail] (List.getElem_mem ht)
  exact ⟨i, by rw [List.getElem?_eq_getElem ht, hi], hl⟩

theorem clusterLoop_safe (hg : SpareEntry g) (full : List UInt8) (close : Option (List UInt8))
    (hc : ∀ t, close = some t → Spec.Harmless K g t) (k : Nat) : ∀ (cs : List UInt8) (first : Bool) (s : AState),
    Room K (k + cs.length) g s → ∃ s', clusterLoop cfg full close cs first s = ok s' ∧ Room K k g s'
  | [], _, s, h => ⟨s, rfl, h⟩
  | c :: cs, first, s, h => by
    rw [clusterLoop]
    have hsp := SpareEntry.core h.core hg
    have hl : lastIdx s.grid < s.grid.length := by unfold SpareEntry at hsp; omega
    have h' : Room K (k + cs.length) g s := h.mono (by simp)
    rcases scanGrid_total (p := fun e => e.short = c) 0 hl with ⟨i, e, h1, h2, _⟩ | ⟨h1, _⟩
    · rw [h1, ok_bind]
      dsimp only
      rw [Nat.zero_add]
      obtain ⟨s1, hs1, hr1⟩ := doArg_safe (cfg := cfg) (k := k + cs.length) hg
        (by rw [show k + cs.length + 1 = k + (c :: cs).length by simp; omega]; exact h)
        (by rw [lastIdx_core h.core] at h2; exact h2) hc
      rw [hs1, ok_bind]
      exact clusterLoop_safe hg full close hc k cs false s1 hr1
    · rw [h1, ok_bind]
      dsimp only
      split
      · exact clusterLoop_safe hg full close hc k cs false s h'
      · split
        · rename_i hcond
          obtain ⟨i, hq, hi⟩ := h.waiting hcond.2.2
          rw [hq]
          dsimp only
          obtain ⟨e, _, he, _, _⟩ := h.at hg hi
          rw [entryAt_ok.mpr he, ok_bind]
          split
          · rename_i hty
            obtain ⟨r, hr, hv⟩ := stringToValue_text (cfg := cfg) ((h.vars i hi e he).mono (by omega : k ≤ k + (c :: cs).length))
              (number_inRange full hty)
            obtain ⟨v, hr2⟩ := stringToValue_core hr
            rw [hr, ok_bind]
            exact ⟨_, rfl, ((h.set (by omega : k ≤ k + (c :: cs).length) he (by rw [hr2]; rfl) hv).tail (s.tail + 1))⟩
          · exact clusterLoop_safe hg full close hc k cs false _ h'.bad
        · exact clusterLoop_safe hg full close hc k cs false _ h'.bad

theorem closeText_harmless {a : List UInt8} (ha : ∀ t ∈ Spec.texts a, Spec.Harmless K g t) :
    ∀ t, closeText cfg a = some t → Spec.Harmless K g t := by
  intro t ht
  unfold closeText at ht
  split at ht
  · cases ht; exact ha _ (by unfold Spec.texts; simp)
  · cases ht

theorem doShort_safe (hg : SpareEntry g) {k : Nat} {a : List UInt8} {s : AState}
    (ha : ∀ t ∈ Spec.texts a, Spec.Harmless K g t) (h1 : a.take 1 = ascii "-") (h2 : a.take 2 ≠ ascii "--")
    (h : Room K (k + Spec.options cfg a) g s) : ∃ s', doShort cfg a s = ok s' ∧ Room K k g s' := by
  unfold doShort
  dsimp only
  split
  · exact ⟨_, rfl, (h.mono (by omega)).bad⟩
  · refine clusterLoop_safe hg _ _ (closeText_harmless ha) k _ _ s ?_
    unfold Spec.options at h
    rw [if_neg h2, if_pos h1] at h
    rw [List.length_drop]
    exact h

theorem doLong_safe (hg : SpareEntry g) (fileK : List UInt8 → AState → Outcome AState) {k : Nat} {a : List UInt8} {s : AState}
    (ha : ∀ t ∈ Spec.texts a, Spec.Harmless K g t) (hf : Spec.NotFile cfg a) (h2 : a.take 2 = ascii "--")
    (h : Room K (k + Spec.options cfg a) g s) : ∃ s', doLong cfg fileK a s = ok s' ∧ Room K k g s' := by
  unfold Spec.options at h
  rw [if_pos h2] at h
  have h' : Room K k g s := h.mono (by omega)
  unfold doLong
  dsimp only
  split
  · exact ⟨_, rfl, h'.bad⟩
  · rename_i hne
    have hsp := SpareEntry.core h.core hg
    have hl : lastIdx s.grid < s.grid.length := by unfold SpareEntry at hsp; omega
    rcases longLoop_total (rest := (punch cfg a).drop 2) 0 none hl with h3 | ⟨i, h3, h4⟩ | h3
    · rw [h3, ok_bind]; exact ⟨_, rfl, h'.bad⟩
    · rw [h3, ok_bind]
      rcases h4 with h4 | h4
      · cases h4
      · exact doArg_safe hg h (by rw [lastIdx_core h.core] at h4; omega) (closeText_harmless ha)
    · rw [h3, ok_bind]
      dsimp only
      rw [if_neg]
      · split
        · exact ⟨_, rfl, h'⟩
        · exact ⟨_, rfl, h'.bad⟩
      · intro hp
        rw [List.isPrefixOf_iff_prefix] at hp
        refine hf _ hne hp ?_
        have ht : (punch cfg a).take 2 = ascii "--" := by
          unfold punch
          have e1 : ascii "--" = [45, 45] := by decide
          rw [e1] at h2 ⊢
          split
          · cases a with
            | nil => simp at h2
            | cons x a =>
              cases a with
              | nil => simp at h2
              | cons y a => simp at h2; obtain ⟨rfl, rfl⟩ := h2; simp
          · exact h2
        have := List.take_append_drop 2 (punch cfg a)
        rw [ht] at this
        rw [this]
        rfl

theorem doValue_safe (hg : SpareEntry g) (fileK : List UInt8 → AState → Outcome AState) {k : Nat} {a : List UInt8} {s : AState}
    (ha : Spec.Harmless K g a) (h : Room K k g s) : ∃ s', doValue cfg fileK a s = ok s' ∧ Room K k g s' := by
  have hsp := SpareEntry.core h.core hg
  have hl : lastIdx s.grid < s.grid.length := by unfold SpareEntry at hsp; omega
  have hlc := lastIdx_core h.core
  have write : ∀ i < lastIdx g, ∀ b : Bool, ∃ e r, entryAt s.grid i = ok e ∧ stringToValue cfg (some a) e = ok r ∧
      Room K k g { s with grid := s.grid.set i { r.2 with used := b || r.2.used } } := by
    intro i hi b
    obtain ⟨e, _, he, _, _⟩ := h.at hg hi
    obtain ⟨r, hr, hv⟩ := stringToValue_text (cfg := cfg) (h.vars i hi e he) (h.inRange hg hi he ha)
    obtain ⟨v, hr2⟩ := stringToValue_core hr
    exact ⟨e, r, entryAt_ok.mpr he, hr, h.set (Nat.le_refl k) he (by rw [hr2]; rfl) hv⟩
  unfold doValue
  rw [entryAt_lt (by omega), ok_bind]
  split
  · rename_i hcond
    obtain ⟨i, hq, hi⟩ := h.waiting hcond.2
    rw [hq]
    dsimp only
    obtain ⟨e, r, he, hr, hw⟩ := write i hi false
    rw [he, ok_bind, hr, ok_bind]
    exact ⟨_, rfl, (hw.tail (s.tail + 1)).okay (s.okay && r.1)⟩
  · rcases scanGrid_total (p := fun e => e.short = argvMand && (!e.used || e.array)) 0 hl with ⟨i, e, h1, h2, _⟩ | ⟨h1, _⟩
    · rw [h1, ok_bind]
      dsimp only
      rw [Nat.zero_add]
      obtain ⟨e, r, he, hr, hw⟩ := write i (by omega) true
      rw [he, ok_bind, hr, ok_bind]
      exact ⟨_, rfl, hw.okay (s.okay && r.1)⟩
    · rw [h1, ok_bind]
      dsimp only
      rcases scanGrid_total (p := fun e => e.short = argvMaybe && (!e.used || e.array)) 0 hl with ⟨i, e, h1, h2, _⟩ | ⟨h1, _⟩
      · rw [h1, ok_bind]
        dsimp only
        rw [Nat.zero_add]
        obtain ⟨e, r, he, hr, hw⟩ := write i (by omega) true
        rw [he, ok_bind, hr, ok_bind]
        exact ⟨_, rfl, hw.okay (s.okay && r.1)⟩
      · rw [h1, ok_bind]
        exact ⟨_, rfl, h.bad⟩

/-- The sum of the options in arguments. -/
def Spec.allOptions (cfg : ACfg) (as : List (List UInt8)) : Nat := (as.map (Spec.options cfg)).sum

theorem doList_safe (hg : SpareEntry g) (fileK : List UInt8 → AState → Outcome AState) (k : Nat) :
    ∀ (as : List (List UInt8)) (last : Bool) (s : AState),
      (∀ a ∈ as, Spec.NotFile cfg a ∧ ∀ t ∈ Spec.texts a, Spec.Harmless K g t) →
      Room K (k + Spec.allOptions cfg as) g s → ∃ r, doList cfg fileK as last s = ok r ∧ Room K k g r.1
  | [], _, s, _, h => ⟨_, rfl, h⟩
  | a :: as, last, s, hall, h => by
    have hrest := fun x hx => hall x (List.mem_cons_of_mem a hx)
    obtain ⟨hf, ht⟩ := hall a (by simp)
    have hsum : Spec.allOptions cfg (a :: as) = Spec.options cfg a + Spec.allOptions cfg as := by
      unfold Spec.allOptions; simp
    rw [hsum] at h
    have h' : Room K (k + Spec.allOptions cfg as) g s := h.mono (by omega)
    have h'' : Room K (k + Spec.allOptions cfg as + Spec.options cfg a) g s := h.mono (by omega)
    rw [doList]
    split
    · obtain ⟨r, hr, hR⟩ := doList_safe hg fileK k as false s hrest h'
      rw [hr, ok_bind]; exact ⟨_, rfl, hR⟩
    · split
      · obtain ⟨r, hr, hR⟩ := doList_safe hg fileK k as true s hrest h'
        rw [hr, ok_bind]; exact ⟨_, rfl, hR⟩
      · split
        · rename_i hd
          obtain ⟨s1, hs1, hR1⟩ := doLong_safe hg fileK ht hf hd.2 h''
          rw [hs1, ok_bind]
          obtain ⟨r, hr, hR⟩ := doList_safe hg fileK k as last s1 hrest hR1
          rw [hr, ok_bind]; exact ⟨_, rfl, hR⟩
        · rename_i hnl
          split
          · rename_i hd
            obtain ⟨s1, hs1, hR1⟩ := doShort_safe hg ht hd.2.1 (fun e => hnl ⟨hd.1, e⟩) h''
            rw [hs1, ok_bind]
            obtain ⟨r, hr, hR⟩ := doList_safe hg fileK k as last s1 hrest hR1
            rw [hr, ok_bind]; exact ⟨_, rfl, hR⟩
          · obtain ⟨s1, hs1, hR1⟩ := doValue_safe hg fileK (ht a (by unfold Spec.texts; simp)) h'
            rw [hs1, ok_bind]
            obtain ⟨r, hr, hR⟩ := doList_safe hg fileK k as last s1 hrest hR1
            rw [hr, ok_bind]; exact ⟨_, rfl, hR⟩

theorem Spec.HasVariable.fresh {k : Nat} {e : AEntry} (h : Spec.HasVariable k e) :
    Spec.HasVariable k { e with used := false, var := if e.array then some (.many []) else e.var } := by
  rcases h with h | ⟨h1, h2, vs, h3⟩ | ⟨h1, v, h2, h3⟩
  · exact .inl h
  · refine .inr (.inl ⟨h1, h2, [], ?_⟩)
    simp [h1]
  · refine .inr (.inr ⟨h1, v, ?_, h3⟩)
    simp [h1, h2]

theorem preLoop_safe {n k : Nat} : ∀ (g : List AEntry) (i : Nat) (prev : Option AEntry) (b1 b2 : Bool),
    (∀ e ∈ g, Spec.HasVariable k e ∧ (e.array = true → e.var ≠ none)) → ∃ r, preLoop n g i prev b1 b2 = ok r ∧
      ∀ g', r = some g' → ∀ e ∈ g', Spec.HasVariable k e ∧ (e.array = true → hasArg e.ty = true)
  | [], _, _, _, _, _ => ⟨_, rfl, fun g' h => by cases h; simp⟩
  | e :: es, i, prev, b1, b2, hall => by
    rw [preLoop]
    split
    · exact ⟨_, rfl, fun _ h => by cases h⟩
    split
    · exact ⟨_, rfl, fun _ h => by cases h⟩
    split
    · exact ⟨_, rfl, fun _ h => by cases h⟩
    rename_i hflag
    split
    · rename_i hnull
      exact absurd hnull.2 ((hall e (by simp)).2 hnull.1)
    split
    · exact ⟨_, rfl, fun _ h => by cases h⟩
    split
    · exact ⟨_, rfl, fun _ h => by cases h⟩
    split
    · exact ⟨_, rfl, fun _ h => by cases h⟩
    obtain ⟨r, hr, hg⟩ := preLoop_safe (n := n) (k := k) es (i + 1) (some e)
      (b1 || (e.array && (e.short = argvMand || e.short = argvMaybe))) (b2 || e.short = argvMaybe)
      (fun x hx => hall x (List.mem_cons_of_mem e hx))
    rw [hr, ok_bind]
    refine ⟨_, rfl, fun g' h => ?_⟩
    cases r with
    | none => cases h
    | some es' =>
      simp only [Option.map_some, Option.some.injEq] at h
      subst h
      intro x hx
      rcases List.mem_cons.mp hx with rfl | hx
      · refine ⟨(hall e (by simp)).1.fresh, fun ha => ?_⟩
        have ha : e.array = true := ha
        show hasArg e.ty = true
        simpa [ha] using hflag
      · exact hg es' rfl x hx

theorem preprocess_safe {k : Nat} {g : List AEntry} (h : Spec.Array k g) : ∃ r, preprocess g = ok r ∧
    ∀ g0, r = some g0 → ∀ i < lastIdx g, ∀ e, g0[i]? = some e → Spec.HasVariable k e ∧ (e.array = true → hasArg e.ty = true) := by
  obtain ⟨hl, hv⟩ := h
  obtain ⟨r, hr, hg⟩ := preLoop_safe (n := lastIdx g) (k := k) (g.take (lastIdx g)) 0 none false false (by
    intro e he
    obtain ⟨i, hi, rfl⟩ := List.getElem_of_mem he
    simp at hi
    refine hv i (by omega) _ ?_
    rw [List.getElem_take]
    exact List.getElem?_eq_getElem (by omega))
  unfold preprocess
  dsimp only
  change ∃ r, (if lastIdx g = g.length then ub else preLoop (lastIdx g) (g.take (lastIdx g)) 0 none false false >>= fun r =>
    ok (r.map (· ++ g.drop (lastIdx g)))) = ok r ∧ _
  rw [if_neg (by omega), hr, ok_bind]
  refine ⟨_, rfl, fun g0 h0 => ?_⟩
  cases r with
  | none => cases h0
  | some es' =>
    simp only [Option.map_some, Option.some.injEq] at h0
    subst h0
    intro i hi e he
    have hlen : es'.length = lastIdx g := by
      have := congrArg List.length (preLoop_core hr).1
      simp [coresOf] at this
      omega
    rw [List.getElem?_append_left (by omega)] at he
    exact hg es' rfl e (List.mem_of_getElem? he)

/-- **C108 (partial).** Processing a command line returns and stays inside every object, for every array and every list of
arguments (environment included) such that: there is a readable entry behind the end of the array; there are at most as
many option characters as arguments and environment words together, the program's name included; nothing abbreviates
`--argv-file`; and the texts are within the range of the types that do not check it.  All four can fail: see
`C108_last_violated` and what follows it. -/
theorem C108_safe_partial (cfg : ACfg) (fuel : Nat) (g : List AEntry) (argv0 : List UInt8) (args : List (List UInt8))
    (stdin : List UInt8) (fds : Nat)
    (hg : Spec.Array (Spec.allOptions cfg (args ++ envArgs cfg argv0)) g)
    (hroom : Spec.allOptions cfg (args ++ envArgs cfg argv0) ≤ args.length + 1 + (envArgs cfg argv0).length)
    (htext : ∀ a ∈ args ++ envArgs cfg argv0, Spec.NotFile cfg a ∧
      ∀ t ∈ Spec.texts a, Spec.Harmless (Spec.allOptions cfg (args ++ envArgs cfg argv0)) g t) :
    ∃ r, argvProcess cfg fuel g (argv0 :: args) stdin fds = ok r := by
  unfold argvProcess
  dsimp only
  obtain ⟨r, hr, hv⟩ := preprocess_safe hg
  rw [hr, ok_bind]
  cases r with
  | none => exact ⟨_, rfl⟩
  | some g0 =>
    dsimp only
    obtain ⟨hcore, _, _⟩ := preprocess_core hr
    have hsp : SpareEntry g := hg.1
    have hsum : ∀ as bs, Spec.allOptions cfg (as ++ bs) = Spec.allOptions cfg as + Spec.allOptions cfg bs := by
      intro as bs; unfold Spec.allOptions; simp
    generalize hE : envArgs cfg argv0 = env at *
    generalize hK : Spec.allOptions cfg (args ++ env) = K at *
    have hKs : K = Spec.allOptions cfg args + Spec.allOptions cfg env := by rw [← hK, hsum]
    unfold processLists
    dsimp only
    have start : Room K K g ⟨g0, [], args.length + 1 + env.length, 0, true, stdin, fds, 0⟩ :=
      ⟨hcore, fun i hi e he => (hv g0 rfl i hi e he).1, fun i hi e he => (hv g0 rfl i hi e he).2, by simp,
        by simpa using hroom, Nat.le_refl K⟩
    have sub : ∀ b : Bool, ∀ a ∈ (if b then env else []), Spec.NotFile cfg a ∧ ∀ t ∈ Spec.texts a, Spec.Harmless K g t := by
      intro b a ha
      cases b with
      | false => simp at ha
      | true => exact htext a (List.mem_append_right _ (by simpa using ha))
    -- the three lists
    obtain ⟨r1, h1, R1⟩ := doList_safe (cfg := cfg) hsp (fileArgs cfg fuel)
      (Spec.allOptions cfg args + Spec.allOptions cfg (if cfg.processEnv && cfg.envAfter then env else []))
      (if cfg.processEnv && !cfg.envAfter then env else []) false _ (sub _) (start.mono (by
        rw [hKs]
        cases cfg.processEnv <;> cases cfg.envAfter <;> simp [Spec.allOptions]))
    rw [h1, ok_bind]
    obtain ⟨r2, h2, R2⟩ := doList_safe (cfg := cfg) hsp (fileArgs cfg fuel)
      (Spec.allOptions cfg (if cfg.processEnv && cfg.envAfter then env else [])) args false r1.1
      (fun a ha => htext a (List.mem_append_left _ ha)) (R1.mono (by omega))
    rw [h2, ok_bind]
    obtain ⟨r3, h3, R3⟩ := doList_safe (cfg := cfg) hsp (fileArgs cfg fuel) 0
      (if cfg.processEnv && cfg.envAfter then env else []) false r2.1 (sub _) (R2.mono (by omega))
    rw [h3, ok_bind]
    have hsp3 : SpareEntry r3.1.grid := SpareEntry.core R3.core hsp
    have hl3 : lastIdx r3.1.grid < r3.1.grid.length := by unfold SpareEntry at hsp3; omega
    obtain ⟨m, hm⟩ := checkMand_total hl3
    rw [hm, ok_bind]
    obtain ⟨x, hx⟩ := checkXor_total hl3 (XorInside.core R3.core (preprocess_xor hr)) (r3.1.grid.length + 1) 0 (by omega) (by omega)
    rw [hx, ok_bind]
    exact ⟨_, rfl⟩

/-- The hypotheses of `C108_safe_partial` are met by an array with alternatives, a counter, a number and a list, and by a
command line with options, values, a cluster and a positional argument. -/
example : Spec.Array 4 argvGrid ∧
    Spec.allOptions argvCfg [ascii "-av", ascii "-n", ascii "5", ascii "--output=x", ascii "in"] = 4 ∧
    (∀ a ∈ [ascii "-av", ascii "-n", ascii "5", ascii "--output=x", ascii "in"], Spec.NotFile argvCfg a ∧
      ∀ t ∈ Spec.texts a, Spec.Harmless 4 argvGrid t) := by
  refine ⟨⟨by decide +kernel, ?_⟩, by decide +kernel, ?_⟩
  · intro i hi e he
    have hi : i < 8 := hi
    have : i = 0 ∨ i = 1 ∨ i = 2 ∨ i = 3 ∨ i = 4 ∨ i = 5 ∨ i = 6 ∨ i = 7 := by omega
    rcases this with rfl | rfl | rfl | rfl | rfl | rfl | rfl | rfl <;> cases Option.some.inj he <;>
      simp [Spec.HasVariable]
  · intro a ha
    constructor
    · intro rest hr hp
      have hlen : rest.length ≤ 9 := hp.length_le
      have hr1 := hp
      rw [List.prefix_iff_eq_take] at hr1
      have : rest.length ≠ 0 := by simpa using hr
      generalize rest.length = n at *
      subst hr1
      have : n = 1 ∨ n = 2 ∨ n = 3 ∨ n = 4 ∨ n = 5 ∨ n = 6 ∨ n = 7 ∨ n = 8 ∨ n = 9 := by omega
      simp only [List.mem_cons, List.not_mem_nil, or_false] at ha
      rcases ha with rfl | rfl | rfl | rfl | rfl <;>
        rcases this with rfl | rfl | rfl | rfl | rfl | rfl | rfl | rfl | rfl <;> decide +kernel
    · intro t ht i hi e he
      have hi : i < 8 := hi
      have : i = 0 ∨ i = 1 ∨ i = 2 ∨ i = 3 ∨ i = 4 ∨ i = 5 ∨ i = 6 ∨ i = 7 := by omega
      unfold Spec.InRange
      simp only [List.mem_cons, List.not_mem_nil, or_false] at ha
      unfold Spec.texts at ht
      simp only [List.mem_cons, List.not_mem_nil, or_false] at ht
      rcases ht with rfl | rfl <;> rcases ha with rfl | rfl | rfl | rfl | rfl <;>
        rcases this with rfl | rfl | rfl | rfl | rfl | rfl | rfl | rfl <;> cases Option.some.inj he <;> decide +kernel

end Wdns
