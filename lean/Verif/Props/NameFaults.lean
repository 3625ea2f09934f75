import Verif.Spec.NameFaults
import Verif.Props.NameGrammar

/-!
# Why a text is not a name (C70)
-/

namespace Wdns
open Outcome Spec

/-- The same as `BeginsAs`, character by character, in a label of which `cur` has been read. -/
inductive GoesOn (f : UInt8 → UInt8) : List UInt8 → Label → Name → Label → Prop
  | stop {cur} : GoesOn f [] cur [] cur
  | item {cur t b s n l} : ItemReads f t b → GoesOn f s (cur ++ [b]) n l → GoesOn f (t ++ s) cur n l
  | dot {cur s n l} : cur ≠ [] → GoesOn f s [] n l → GoesOn f (46 :: s) cur (cur :: n) l

theorem goesOn_label {f : UInt8 → UInt8} {t : List UInt8} {l : Label} (h : LabelReads f t l) : ∀ {s : List UInt8} {cur : Label} {n : Name} {m : Label},
    GoesOn f s (cur ++ l) n m → GoesOn f (t ++ s) cur n m := by
  induction h with
  | nil => intro s cur n m hr; simpa using hr
  | @plain c t l h1 h2 _ ih =>
    intro s cur n m hr
    exact .item (t := [c]) (.plain h1 h2) (ih (by simpa using hr))
  | @esc d t l h1 _ ih =>
    intro s cur n m hr
    exact .item (t := [92, d]) (.esc h1) (ih (by simpa using hr))
  | @ddd d e g t l h1 h2 h3 h4 _ ih =>
    intro s cur n m hr
    exact .item (t := [92, d, e, g]) (.ddd h1 h2 h3 h4) (ih (by simpa using hr))

theorem goesOn_of_begins {f : UInt8 → UInt8} {t : List UInt8} {n : Name} {l : Label} (h : BeginsAs f t n l) : GoesOn f t [] n l := by
  induction h with
  | @inside t l hl => simpa using goesOn_label hl (s := []) (cur := []) (n := []) (m := l) .stop
  | @dot t l s n m hl hne _ ih => exact goesOn_label hl (cur := []) (.dot hne ih)

theorem begins_of_goesOn {f : UInt8 → UInt8} {s : List UInt8} {cur : Label} {n : Name} {m : Label} (h : GoesOn f s cur n m) :
    ∃ t l, LabelReads f t l ∧ ((s = t ∧ n = [] ∧ m = cur ++ l) ∨
      ∃ s' n', s = t ++ 46 :: s' ∧ n = (cur ++ l) :: n' ∧ cur ++ l ≠ [] ∧ BeginsAs f s' n' m) := by
  induction h with
  | @stop cur => exact ⟨[], [], .nil, .inl ⟨rfl, rfl, by simp⟩⟩
  | @item cur t b s n l hi _ ih =>
    obtain ⟨t', l', hl, h⟩ := ih
    refine ⟨t ++ t', b :: l', labelReads_item hi hl, ?_⟩
    rcases h with ⟨rfl, rfl, rfl⟩ | ⟨s', n', rfl, rfl, hne, hb⟩
    · exact .inl ⟨rfl, rfl, by simp⟩
    · exact .inr ⟨s', n', by simp, by simp, by simp, hb⟩
  | @dot cur s n l hne _ ih =>
    obtain ⟨t', l', hl, h⟩ := ih
    refine ⟨[], [], .nil, .inr ⟨s, n, rfl, by simp, by simpa using hne, ?_⟩⟩
    rcases h with ⟨rfl, rfl, rfl⟩ | ⟨s', n', rfl, rfl, hne', hb⟩
    · exact .inside (by simpa using hl)
    · exact .dot (l := [] ++ l') (by simpa using hl) hne' hb

theorem begins_iff {f : UInt8 → UInt8} {t : List UInt8} {n : Name} {l : Label} : BeginsAs f t n l ↔ GoesOn f t [] n l := by
  refine ⟨goesOn_of_begins, fun h => ?_⟩
  obtain ⟨t', l', hl, h⟩ := begins_of_goesOn h
  rcases h with ⟨rfl, rfl, rfl⟩ | ⟨s', n', rfl, rfl, hne', hb⟩
  · exact .inside (by simpa using hl)
  · exact .dot (l := [] ++ l') (by simpa using hl) hne' hb

theorem octetsUsed_eq (n : Name) (l : Label) : octetsUsed n l = (labs n).length + 1 + l.length := by
  unfold octetsUsed
  have : (n.map (·.length + 1)).sum = (labs n).length := by
    induction n with
    | nil => simp [labs]
    | cons a n ih => simp only [List.map_cons, List.sum_cons, ih]; simp [labs]; omega
  omega

/-- Every text is the text of a name that fits, or it has a first fault. -/
theorem fates {f : UInt8 → UInt8} : ∀ (k : Nat) (s : List UInt8) (cur : Label) (used : Nat), s.length ≤ k → (s = [] → cur ≠ []) → used + 1 + cur.length ≤ 255 →
    (∃ n, RestReads f s cur n ∧ used + (wire n).length ≤ 255) ∨
    ∃ t rest n l, s = t ++ rest ∧ GoesOn f t cur n l ∧
      ((used + octetsUsed n l = 255 ∧ (rest = [] → l ≠ [])) ∨ (used + octetsUsed n l < 255 ∧ CannotFollow l rest) ∨
        (used + octetsUsed n l < 255 ∧ rest = [92])) := by
  intro k
  induction k with
  | zero =>
    intro s cur used hk he hu
    have : s = [] := List.length_eq_zero_iff.mp (by omega)
    subst this
    by_cases hfull : used + 1 + cur.length = 255
    · exact .inr ⟨[], [], [], cur, rfl, .stop, .inl ⟨by simp [octetsUsed]; omega, fun _ => he rfl⟩⟩
    · exact .inl ⟨[cur], .done (he rfl), by simp [wire]; omega⟩
  | succ k ih =>
    intro s cur used hk he hu
    by_cases hfull : used + 1 + cur.length = 255
    · exact .inr ⟨[], s, [], cur, rfl, .stop, .inl ⟨by simp [octetsUsed]; omega, he⟩⟩
    have hitem : ∀ t b s', s = t ++ s' → ItemReads f t b → (∃ n, RestReads f s cur n ∧ used + (wire n).length ≤ 255) ∨
        ∃ t rest n l, s = t ++ rest ∧ GoesOn f t cur n l ∧
          ((used + octetsUsed n l = 255 ∧ (rest = [] → l ≠ [])) ∨ (used + octetsUsed n l < 255 ∧ CannotFollow l rest) ∨
            (used + octetsUsed n l < 255 ∧ rest = [92])) := by
      rintro t b s' rfl hi
      have ht : 1 ≤ t.length := by cases hi <;> simp
      rw [List.length_append] at hk
      rcases ih s' (cur ++ [b]) used (by omega) (by simp) (by simp; omega) with ⟨n, hr, hl⟩ | ⟨t', rest, n, l, rfl, hg, hc⟩
      · exact .inl ⟨n, .item hi hr, hl⟩
      · exact .inr ⟨t ++ t', rest, n, l, by simp, .item hi hg, hc⟩
    have hbad : CannotFollow cur s → ∃ t rest n l, s = t ++ rest ∧ GoesOn f t cur n l ∧
          ((used + octetsUsed n l = 255 ∧ (rest = [] → l ≠ [])) ∨ (used + octetsUsed n l < 255 ∧ CannotFollow l rest) ∨
            (used + octetsUsed n l < 255 ∧ rest = [92])) :=
      fun hb => ⟨[], s, [], cur, rfl, .stop, .inr (.inl ⟨by simp [octetsUsed]; omega, hb⟩)⟩
    match s with
    | [] => exact .inl ⟨[cur], .done (he rfl), by simp [wire]; omega⟩
    | c :: s =>
      by_cases h46 : c = 46
      · subst h46
        by_cases hcur : cur = []
        · exact .inr (hbad (.inl ⟨hcur, s, rfl⟩))
        by_cases hs : s = []
        · subst hs; exact .inl ⟨[cur], .doneDot hcur, by simp [wire]; omega⟩
        · rcases ih s [] (used + 1 + cur.length) (by simpa using hk) (fun h => absurd h hs) (by simp; omega) with ⟨n, hr, hl⟩ | ⟨t', rest, n, l, rfl, hg, hc⟩
          · exact .inl ⟨cur :: n, .dot hcur hs hr, by simp [wire] at hl ⊢; omega⟩
          · refine .inr ⟨46 :: t', rest, cur :: n, l, by simp, .dot hcur hg, ?_⟩
            have e : octetsUsed (cur :: n) l = cur.length + 1 + octetsUsed n l := by simp [octetsUsed]; omega
            rw [e, show used + (cur.length + 1 + octetsUsed n l) = used + 1 + cur.length + octetsUsed n l by omega]
            exact hc
      by_cases h92 : c = 92
      rotate_left
      · exact hitem [c] _ s rfl (.plain h46 h92)
      subst h92
      match s with
      | [] => exact .inr ⟨[], [92], [], cur, rfl, .stop, .inr (.inr ⟨by simp [octetsUsed]; omega, rfl⟩)⟩
      | d :: s =>
        by_cases hd : DigitChar d
        rotate_left
        · exact hitem [92, d] d s rfl (.esc hd)
        by_cases hb : ∃ e g r', s = e :: g :: r' ∧ DigitChar e ∧ DigitChar g ∧ three d e g ≤ 255
        · obtain ⟨e, g, r', rfl, he', hg', h3⟩ := hb
          exact hitem [92, d, e, g] _ r' rfl (.ddd hd he' hg' h3)
        · exact .inr (hbad (.inr ⟨d, s, rfl, hd, hb⟩))

/-- The scanner goes through what the text begins with. -/
theorem stn_goesOn {str : List UInt8} {dc : Bool} (h0 : 0 ∉ str) {t : List UInt8} {cur : Label} {n : Name} {l : Label} (h : GoesOn (caseOf dc) t cur n l) :
    ∀ fuel p (done : Name) rest, str.drop p = t ++ rest → p ≤ str.length → str.length + 2 ≤ fuel + p → (labs done).length + octetsUsed n l ≤ 255 → (rest = [] → l ≠ []) →
    ∃ fuel' p' : Nat, str.drop p' = rest ∧ p' ≤ str.length ∧ str.length + 2 ≤ fuel' + p' ∧
      stnLoop 255 str dc fuel p ((str.length : Int) - p) cur.length ((labs done).length + 1 + cur.length) (labs done ++ 0 :: cur) (labs done).length =
        stnLoop 255 str dc fuel' p' ((str.length : Int) - p') l.length ((labs (done ++ n)).length + 1 + l.length) (labs (done ++ n) ++ 0 :: l) (labs (done ++ n)).length := by
  have hdl : ∀ (done : Name) (cur : Label), (labs done ++ 0 :: cur).length = (labs done).length + 1 + cur.length := by
    intro done cur; simp; omega
  have hge : ∀ {t : List UInt8} {cur : Label} {n : Name} {l : Label}, GoesOn (caseOf dc) t cur n l → 1 + cur.length ≤ octetsUsed n l := by
    intro t cur n l h
    induction h with
    | stop => simp [octetsUsed]
    | item _ _ ih => simp only [List.length_append, List.length_singleton] at ih; omega
    | dot _ _ ih => simp [octetsUsed] at ih ⊢; omega
  induction h with
  | @stop cur =>
    intro fuel p done rest hp hple hf _ _
    exact ⟨fuel, p, by simpa using hp, hple, hf, by simp⟩
  | @item cur t b s n l hi hr ih =>
    intro fuel p done rest hp hple hf hlen hre
    obtain ⟨fuel, rfl⟩ : ∃ k, fuel = k + 1 := ⟨fuel - 1, by omega⟩
    rw [List.append_assoc] at hp
    obtain ⟨e1, e2⟩ := stn_item hi hp h0
    have ht : 1 ≤ t.length := by cases hi <;> simp
    have hlen' := congrArg List.length hp
    rw [List.length_drop, List.length_append] at hlen'
    have hg := hge hr
    simp only [List.length_append, List.length_singleton] at hg
    obtain ⟨fuel', p', a1, a2, a3, a4⟩ := ih fuel (p + t.length) done rest e1 (by omega) (by omega) hlen hre
    refine ⟨fuel', p', a1, a2, a3, ?_⟩
    rw [e2, if_neg (by omega), hdl, if_neg (by omega), ← a4]
    simp only [List.length_append, List.length_singleton, List.append_assoc, List.cons_append, ← Nat.add_assoc]
  | @dot cur s n l hc hr ih =>
    intro fuel p done rest hp hple hf hlen hre
    obtain ⟨fuel, rfl⟩ : ∃ k, fuel = k + 1 := ⟨fuel - 1, by omega⟩
    obtain ⟨e1, e2⟩ := drop_get (s := s ++ rest) hp
    obtain ⟨l1, l2⟩ := drop_len hp (by simp)
    have hs : s ++ rest ≠ [] := by
      intro h
      obtain ⟨rfl, rfl⟩ := List.append_eq_nil_iff.mp h
      have := hre rfl
      generalize hx : ([] : List UInt8) = x at hr
      cases hr with
      | stop => exact this rfl
      | item hi _ => 
        have := (List.append_eq_nil_iff.mp hx.symm).1
        subst this; cases hi
      | dot => cases hx
    obtain ⟨l3, l4⟩ := drop_len e2 hs
    have hg := hge (.dot hc hr)
    have hg1 := hge hr
    have hou : octetsUsed (cur :: n) l = cur.length + 1 + octetsUsed n l := by simp [octetsUsed]; omega
    have := List.length_pos_iff.mpr hc
    have e : (labs (done ++ [cur])).length = (labs done).length + 1 + cur.length := by rw [labs_append]; simp [labs]; omega
    obtain ⟨fuel', p', a1, a2, a3, a4⟩ := ih fuel (p + 1) (done ++ [cur]) rest e2 (by omega) (by omega) (by omega) hre
    refine ⟨fuel', p', a1, a2, a3, ?_⟩
    rw [stn_dot e1 (by omega) rfl, if_neg (by simp at hg1; omega), if_neg (by omega), hdl, if_neg (by simp at hg1; omega), if_neg (by omega)]
    rw [show done ++ cur :: n = done ++ [cur] ++ n by simp, ← a4]
    have hset : (labs done ++ 0 :: cur).set (labs done).length (UInt8.ofNat cur.length) ++ [0] = labs (done ++ [cur]) ++ [0] := by
      rw [set_append_cons, labs_append]; simp [labs]
    rw [hset, ← e, show (str.length : Int) - p - 1 = (str.length : Int) - (p + 1 : Nat) by omega]
    rfl

/-- The three ways of the scanner to stop without a name. -/
theorem stn_faults {str : List UInt8} {dc : Bool} (h0 : 0 ∉ str) (hne : str ≠ []) (hdot : str ≠ [46]) :
    (TooLong (caseOf dc) str → strToNameGen str dc = err .nameOverflow) ∧ (Malformed (caseOf dc) str → strToNameGen str dc = err .parseError) ∧
    (EndsEscaping (caseOf dc) str → strToNameGen str dc = ub) := by
  have hroot : ¬ (str.length = 0 ∨ (str.length = 1 ∧ str.head? = some 46)) := by
    match str with
    | [] => exact absurd rfl hne
    | [c] => simp at hdot ⊢; exact hdot
    | _ :: _ :: _ => simp
  have hrun : ∀ {t rest n l}, str = t ++ rest → BeginsAs (caseOf dc) t n l → octetsUsed n l ≤ 255 → (rest = [] → l ≠ []) →
      ∃ fuel p : Nat, str.drop p = rest ∧ p ≤ str.length ∧ str.length + 2 ≤ fuel + p ∧ strToNameGen str dc =
        stnLoop 255 str dc fuel p ((str.length : Int) - p) l.length (octetsUsed n l) (labs n ++ 0 :: l) (labs n).length := by
    intro t rest n l hs hb hlen hre
    obtain ⟨fuel', p', a1, a2, a3, a4⟩ := stn_goesOn h0 (goesOn_of_begins hb) (str.length + 2) 0 [] rest (by simpa using hs) (by omega) (by omega) (by simpa [labs] using hlen) hre
    refine ⟨fuel', p', a1, a2, a3, ?_⟩
    unfold strToNameGen
    rw [if_neg hroot]
    simpa [labs, maxlenName, octetsUsed_eq] using a4
  refine ⟨?_, ?_, ?_⟩
  · rintro ⟨t, rest, n, l, hs, hb, hu, hre⟩
    obtain ⟨fuel, p, hp, hple, hf, e⟩ := hrun hs hb (by omega) hre
    rw [e]
    obtain ⟨fuel, rfl⟩ : ∃ k, fuel = k + 1 := ⟨fuel - 1, by omega⟩
    rw [hu]
    by_cases hend : rest = []
    · subst hend
      have : p = str.length := by
        have := congrArg List.length hp
        rw [List.length_drop, List.length_nil] at this
        omega
      rw [show (str.length : Int) - p = 0 by omega, stn_end this, if_pos rfl]
    · obtain ⟨l1, l2⟩ := drop_len hp hend
      rw [stnLoop, rdS_lt (List.getElem?_eq_getElem l2)]
      simp only [ok_bind, maxlenName]
      rw [if_neg (by omega), if_pos (by omega)]
  · rintro ⟨t, rest, n, l, hs, hb, hu, hc⟩
    have hrne : rest ≠ [] := by
      rcases hc with ⟨-, r, rfl⟩ | ⟨d, r, rfl, -⟩ <;> simp
    obtain ⟨fuel, p, hp, hple, hf, e⟩ := hrun hs hb (by omega) (fun h => absurd h hrne)
    rw [e]
    obtain ⟨fuel, rfl⟩ : ∃ k, fuel = k + 1 := ⟨fuel - 1, by omega⟩
    obtain ⟨l1, l2⟩ := drop_len hp hrne
    rcases hc with ⟨rfl, r, rfl⟩ | ⟨d, r, rfl, hd, hnot⟩
    · obtain ⟨e1, e2⟩ := drop_get hp
      rw [stn_dot e1 (by omega) rfl, if_neg (by omega), if_pos List.length_nil]
    · obtain ⟨e1, e2⟩ := drop_get hp
      obtain ⟨e3, e4⟩ := drop_get e2
      have hd' := (isDigit_char d).mpr hd
      simp only [List.length_cons] at l1
      match r with
      | [] =>
        simp only [List.length_nil] at l1
        rw [stn_ddd_short e1 (by omega) (by omega) rfl e3 hd', if_neg (by omega)]
      | [x] =>
        obtain ⟨e5, e6⟩ := drop_get e4
        simp only [List.length_cons, List.length_nil] at l1
        rw [stn_ddd (d2 := 0) e1 (by omega) rfl e3 hd' (rdS_lt e5) (by simp [rdS, show p + 3 = str.length by omega]), if_neg (by omega),
          if_pos (by right; decide)]
      | x :: g :: r' =>
        obtain ⟨e5, e6⟩ := drop_get e4
        obtain ⟨e7, e8⟩ := drop_get e6
        simp only [List.length_cons] at l1
        rw [stn_ddd e1 (by omega) rfl e3 hd' (rdS_lt e5) (rdS_lt e7), if_neg (by omega)]
        by_cases hdig : isDigit x = false ∨ isDigit g = false
        · rw [if_pos hdig]
        · rw [if_neg hdig, if_pos]
          by_contra hv
          have hv' : val3 d x g = three d x g := by unfold val3 three; omega
          refine hnot ⟨x, g, r', rfl, (isDigit_char x).mp ?_, (isDigit_char g).mp ?_, by omega⟩
          · simpa using fun h => hdig (.inl h)
          · simpa using fun h => hdig (.inr h)
  · rintro ⟨t, n, l, hs, hb, hu⟩
    obtain ⟨fuel, p, hp, hple, hf, e⟩ := hrun hs hb (by omega) (by simp)
    rw [e]
    obtain ⟨e1, e2⟩ := drop_get hp
    obtain ⟨l1, l2⟩ := drop_len hp (by simp)
    simp only [List.length_singleton] at l1
    obtain ⟨fuel, rfl⟩ : ∃ k, fuel = k + 2 := ⟨fuel - 2, by omega⟩
    rw [show (str.length : Int) - p = 1 by omega, stn_dangling e1 rfl (by omega), if_neg (by omega)]

theorem stn_all {str : List UInt8} {dc : Bool} (hne : str ≠ []) :
    (∃ n, NameReads (caseOf dc) str n ∧ (wire n).length ≤ 255) ∨ TooLong (caseOf dc) str ∨ Malformed (caseOf dc) str ∨ EndsEscaping (caseOf dc) str := by
  rcases fates (f := caseOf dc) str.length str [] 0 (Nat.le_refl _) (fun h => absurd h hne) (by simp) with ⟨n, hr, hl⟩ | ⟨t, rest, n, l, hs, hg, hc⟩
  · exact .inl ⟨n, .inr (labels_iff_rest.mpr hr), by simpa using hl⟩
  · simp only [Nat.zero_add] at hc
    rcases hc with ⟨h1, h2⟩ | ⟨h1, h2⟩ | ⟨h1, h2⟩
    · exact .inr (.inl ⟨t, rest, n, l, hs, begins_iff.mpr hg, h1, h2⟩)
    · exact .inr (.inr (.inl ⟨t, rest, n, l, hs, begins_iff.mpr hg, h1, h2⟩))
    · exact .inr (.inr (.inr ⟨t, n, l, by rw [← h2]; exact hs, begins_iff.mpr hg, h1⟩))

/-- The result of scanning a text other than the root's: exactly one of four. -/
theorem stn_why {str : List UInt8} {dc : Bool} (h0 : 0 ∉ str) (hne : str ≠ []) (hdot : str ≠ [46]) :
    (strToNameGen str dc = err .nameOverflow ↔ TooLong (caseOf dc) str) ∧ (strToNameGen str dc = err .parseError ↔ Malformed (caseOf dc) str) ∧
    (strToNameGen str dc = ub ↔ EndsEscaping (caseOf dc) str) := by
  obtain ⟨f1, f2, f3⟩ := stn_faults (dc := dc) h0 hne hdot
  have fok : (∃ n, NameReads (caseOf dc) str n ∧ (wire n).length ≤ 255) → ∃ r, strToNameGen str dc = ok r :=
    fun ⟨n, h1, h2⟩ => ⟨_, (strToNameGen_exact str dc h0 _).mpr ⟨n, h1, h2, rfl⟩⟩
  rcases stn_all (dc := dc) hne with h | h | h | h
  · obtain ⟨r, hr⟩ := fok h
    refine ⟨⟨fun e => ?_, f1⟩, ⟨fun e => ?_, f2⟩, ⟨fun e => ?_, f3⟩⟩ <;> (rw [hr] at e; cases e)
  · refine ⟨⟨fun _ => h, f1⟩, ⟨fun e => ?_, f2⟩, ⟨fun e => ?_, f3⟩⟩ <;> (rw [f1 h] at e; cases e)
  · refine ⟨⟨fun e => ?_, f1⟩, ⟨fun _ => h, f2⟩, ⟨fun e => ?_, f3⟩⟩ <;> (rw [f2 h] at e; cases e)
  · refine ⟨⟨fun e => ?_, f1⟩, ⟨fun e => ?_, f2⟩, ⟨fun _ => h, f3⟩⟩ <;> (rw [f3 h] at e; cases e)

theorem caseOf_false : caseOf false = id := by funext c; simp [caseOf]
theorem caseOf_true : caseOf true = lower := by funext c; simp [caseOf]

/-- **C70** (letter case kept): why a text is rejected.  Read from left to right, the first fault decides: `wdns_res_name_overflow` exactly if the 255 octets are used up
before the text is at its end, `wdns_res_parse_error` exactly if a wrong sequence of characters comes first. -/
theorem C70_case_faults (s : List UInt8) (h0 : 0 ∉ s) (hne : s ≠ []) (hdot : s ≠ [46]) :
    (strToNameCase s = err .nameOverflow ↔ TooLong id s) ∧ (strToNameCase s = err .parseError ↔ Malformed id s) ∧
    (strToNameCase s = ub ↔ EndsEscaping id s) := by
  have := stn_why (str := s) (dc := false) h0 hne hdot
  rwa [caseOf_false] at this

/-- **C70** (lower case): the same for `wdns_str_to_name`. -/
theorem C70_faults (s : List UInt8) (h0 : 0 ∉ s) (hne : s ≠ []) (hdot : s ≠ [46]) :
    (strToName s = err .nameOverflow ↔ TooLong lower s) ∧ (strToName s = err .parseError ↔ Malformed lower s) ∧
    (strToName s = ub ↔ EndsEscaping lower s) := by
  have := stn_why (str := s) (dc := true) h0 hne hdot
  rwa [caseOf_true] at this

/-- Cases of `C70_faults`: `a..b` is malformed, `a\` dangles; a label of 254 characters is too long, with and without what follows. -/
example : Malformed lower (ascii "a..b") ∧ EndsEscaping lower (ascii "a\\") ∧ TooLong lower (List.replicate 254 97) ∧ TooLong lower (List.replicate 254 97 ++ ascii "..") :=
  ⟨(C70_faults _ (by decide) (by decide) (by decide)).2.1.1 (by decide +kernel), (C70_faults _ (by decide) (by decide) (by decide)).2.2.1 (by decide +kernel),
    (C70_faults _ (by decide +kernel) (by decide +kernel) (by decide +kernel)).1.1 (by decide +kernel), (C70_faults _ (by decide +kernel) (by decide +kernel) (by decide +kernel)).1.1 (by decide +kernel)⟩

/-- And a label of 253 characters is a name (C17). -/
example : ¬ TooLong lower (List.replicate 253 97) := fun h =>
  absurd ((C70_faults _ (by decide +kernel) (by decide +kernel) (by decide +kernel)).1.2 h) (by decide +kernel)

/-- **C18**: scanning a text is undefined exactly if the text is right up to a last backslash that escapes nothing, and fits up to there. -/
theorem C18_scan_exactly (s : List UInt8) (h0 : 0 ∉ s) : (strToName s = ub ↔ EndsEscaping lower s) ∧ (strToNameCase s = ub ↔ EndsEscaping id s) := by
  by_cases hne : s = []
  · subst hne
    exact ⟨⟨fun h => by simp [strToName, strToNameGen] at h, fun ⟨t, _, _, h, _⟩ => by simp at h⟩,
      ⟨fun h => by simp [strToNameCase, strToNameGen] at h, fun ⟨t, _, _, h, _⟩ => by simp at h⟩⟩
  by_cases hdot : s = [46]
  · subst hdot
    have : ∀ t : List UInt8, [46] ≠ t ++ [92] := by
      intro t h
      have := congrArg List.getLast? h
      simp at this
    exact ⟨⟨fun h => by simp [strToName, strToNameGen] at h, fun ⟨t, _, _, h, _⟩ => absurd h (this t)⟩,
      ⟨fun h => by simp [strToNameCase, strToNameGen] at h, fun ⟨t, _, _, h, _⟩ => absurd h (this t)⟩⟩
  exact ⟨(C70_faults s h0 hne hdot).2.2, (C70_case_faults s h0 hne hdot).2.2⟩

/-- A case of `C18_scan_exactly`: two backslashes are a character, three are not. -/
example : ¬ EndsEscaping id (ascii "a\\\\") ∧ EndsEscaping id (ascii "a\\\\\\") :=
  ⟨fun h => absurd ((C18_scan_exactly _ (by decide)).2.2 h) (by decide +kernel), (C18_scan_exactly _ (by decide)).2.1 (by decide +kernel)⟩

end Wdns
