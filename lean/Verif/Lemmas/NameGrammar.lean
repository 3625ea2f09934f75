import Verif.Spec.NameGrammar
import Verif.Lemmas.NameScan

namespace Wdns
open Outcome Spec

/-- One character of a label in the text. -/
inductive ItemReads (f : UInt8 → UInt8) : List UInt8 → UInt8 → Prop
  | plain {c} : c ≠ 46 → c ≠ 92 → ItemReads f [c] (f c)
  | esc {d} : ¬ DigitChar d → ItemReads f [92, d] d
  | ddd {d e g} : DigitChar d → DigitChar e → DigitChar g → three d e g ≤ 255 → ItemReads f [92, d, e, g] (UInt8.ofNat (three d e g))

/-- The rest of the text of a name, in the middle of a label of which `cur` has been read. -/
inductive RestReads (f : UInt8 → UInt8) : List UInt8 → Label → Name → Prop
  | done {cur} : cur ≠ [] → RestReads f [] cur [cur]
  | doneDot {cur} : cur ≠ [] → RestReads f [46] cur [cur]
  | dot {cur s n} : cur ≠ [] → s ≠ [] → RestReads f s [] n → RestReads f (46 :: s) cur (cur :: n)
  | item {cur t b s n} : ItemReads f t b → RestReads f s (cur ++ [b]) n → RestReads f (t ++ s) cur n

theorem labelReads_item {f : UInt8 → UInt8} {t : List UInt8} {b : UInt8} (h : ItemReads f t b) {s : List UInt8} {l : Label}
    (hl : LabelReads f s l) : LabelReads f (t ++ s) (b :: l) := by
  cases h with
  | plain h1 h2 => exact .plain h1 h2 hl
  | esc h1 => exact .esc h1 hl
  | ddd h1 h2 h3 h4 => exact .ddd h1 h2 h3 h4 hl

theorem rest_label {f : UInt8 → UInt8} {t : List UInt8} {l : Label} (h : LabelReads f t l) : ∀ {s : List UInt8} {cur : Label} {n : Name},
    RestReads f s (cur ++ l) n → RestReads f (t ++ s) cur n := by
  induction h with
  | nil => intro s cur n hr; simpa using hr
  | @plain c t l h1 h2 _ ih =>
    intro s cur n hr
    exact .item (t := [c]) (.plain h1 h2) (ih (by simpa using hr))
  | @esc d t l h1 _ ih =>
    intro s cur n hr
    exact .item (t := [92, d]) (.esc h1) (ih (by simpa using hr))
  | @ddd d e g t l h1 h2 h3 h4 _ ih =>
    intro s cur n hr
    exact .item (t := [92, d, e, g]) (.ddd h1 h2 h3 h4) (ih (by simpa using hr))

theorem rest_labels {f : UInt8 → UInt8} {s : List UInt8} {n : Name} (h : LabelsRead f s n) : RestReads f s [] n := by
  induction h with
  | @one t l hl hn => simpa using rest_label hl (s := []) (cur := []) (n := [l]) (.done hn)
  | @oneDot t l hl hn => exact rest_label hl (cur := []) (.doneDot hn)
  | @cons t l s n hl hn hs ih =>
    refine rest_label hl (cur := []) (.dot hn ?_ ih)
    intro hnil
    have : ∀ {s : List UInt8} {n : Name}, LabelsRead f s n → s ≠ [] := by
      intro s n h he
      cases h with
      | one h1 h2 => subst he; cases h1; exact h2 rfl
      | oneDot h1 h2 => simp at he
      | cons h1 h2 h3 => simp at he
    exact this hs hnil

theorem labels_of_rest {f : UInt8 → UInt8} {s : List UInt8} {cur : Label} {n : Name} (h : RestReads f s cur n) :
    ∃ t l, LabelReads f t l ∧ cur ++ l ≠ [] ∧ ((s = t ∧ n = [cur ++ l]) ∨ (s = t ++ [46] ∧ n = [cur ++ l]) ∨
      ∃ s' n', s = t ++ 46 :: s' ∧ n = (cur ++ l) :: n' ∧ LabelsRead f s' n') := by
  induction h with
  | done hc => exact ⟨[], [], .nil, by simpa using hc, Or.inl ⟨rfl, by simp⟩⟩
  | doneDot hc => exact ⟨[], [], .nil, by simpa using hc, Or.inr (Or.inl ⟨rfl, by simp⟩)⟩
  | @dot cur s n hc hs _ ih =>
    refine ⟨[], [], .nil, by simpa using hc, Or.inr (Or.inr ⟨s, n, rfl, by simp, ?_⟩)⟩
    obtain ⟨t, l, h1, h2, ⟨rfl, rfl⟩ | ⟨rfl, rfl⟩ | ⟨s', n', rfl, rfl, h3⟩⟩ := ih
    · exact .one h1 h2
    · exact .oneDot h1 h2
    · exact .cons h1 h2 h3
  | @item cur t b s n hi _ ih =>
    obtain ⟨t', l, h1, h2, h3⟩ := ih
    refine ⟨t ++ t', b :: l, labelReads_item hi h1, by simp, ?_⟩
    rw [show cur ++ b :: l = cur ++ [b] ++ l by simp]
    rcases h3 with ⟨rfl, rfl⟩ | ⟨rfl, rfl⟩ | ⟨s', n', rfl, rfl, h3⟩
    · exact Or.inl ⟨rfl, rfl⟩
    · exact Or.inr (Or.inl ⟨by simp, rfl⟩)
    · exact Or.inr (Or.inr ⟨s', n', by simp, rfl, h3⟩)

theorem labels_iff_rest {f : UInt8 → UInt8} {s : List UInt8} {n : Name} : LabelsRead f s n ↔ RestReads f s [] n := by
  constructor
  · exact rest_labels
  · intro h
    obtain ⟨t, l, h1, h2, ⟨rfl, rfl⟩ | ⟨rfl, rfl⟩ | ⟨s', n', rfl, rfl, h3⟩⟩ := labels_of_rest h
    · exact .one h1 h2
    · exact .oneDot h1 h2
    · exact .cons h1 h2 h3

theorem isDigit_char (c : UInt8) : isDigit c = true ↔ DigitChar c := by
  simp [isDigit, DigitChar]

/-! ## The loop -/

theorem drop_get {str : List UInt8} {p : Nat} {c : UInt8} {s : List UInt8} (h : str.drop p = c :: s) : str[p]? = some c ∧ str.drop (p + 1) = s := by
  constructor
  · have : (str.drop p)[0]? = some c := by rw [h]; rfl
    simpa using this
  · rw [← List.drop_drop, h]; rfl

theorem drop_len {str s : List UInt8} {p : Nat} (h : str.drop p = s) (hs : s ≠ []) : str.length - p = s.length ∧ p < str.length := by
  have h1 := congrArg List.length h
  rw [List.length_drop] at h1
  have := List.length_pos_iff.mpr hs
  omega

theorem stn_item {str : List UInt8} {dc : Bool} {t : List UInt8} {b : UInt8} (h : ItemReads (caseOf dc) t b) {s : List UInt8} {p : Nat}
    (hp : str.drop p = t ++ s) (h0 : 0 ∉ str) :
    str.drop (p + t.length) = s ∧ ∀ cap fuel ll len data oc,
      stnLoop cap str dc (fuel + 1) p ((str.length : Int) - p) ll len data oc =
        if 255 ≤ len then err .nameOverflow else if cap < data.length + 1 then ub
        else stnLoop cap str dc fuel (p + t.length) ((str.length : Int) - (p + t.length : Nat)) (ll + 1) (len + 1) (data ++ [b]) oc := by
  refine ⟨by rw [← List.drop_drop, hp, List.drop_left], ?_⟩
  intro cap fuel ll len data oc
  cases h with
  | @plain c h1 h2 =>
    obtain ⟨e1, e2⟩ := drop_get (c := c) (s := s) hp
    obtain ⟨l1, l2⟩ := drop_len hp (by simp)
    rw [stn_char e1 (by omega) (fun h => h0 (h ▸ List.mem_of_getElem? e1)) (fun h => h2 (UInt8.toNat_inj.mp h))
      (fun h => h1 (UInt8.toNat_inj.mp h))]
    rw [show (str.length : Int) - p - 1 = (str.length : Int) - (p + [c].length : Nat) by simp; omega]
    rfl
  | @esc d h1 =>
    obtain ⟨e1, e2⟩ := drop_get (c := 92) (s := b :: s) hp
    obtain ⟨e3, e4⟩ := drop_get e2
    obtain ⟨l1, l2⟩ := drop_len hp (by simp)
    rw [stn_esc e1 e3 (by omega) rfl (by simpa using fun h => h1 ((isDigit_char b).mp h))]
    rw [show (str.length : Int) - p - 2 = (str.length : Int) - (p + [92, b].length : Nat) by simp; omega]
    rfl
  | @ddd d e g h1 h2 h3 h4 =>
    obtain ⟨e1, e2⟩ := drop_get (c := 92) (s := d :: e :: g :: s) hp
    obtain ⟨e3, e4⟩ := drop_get e2
    obtain ⟨e5, e6⟩ := drop_get e4
    obtain ⟨e7, e8⟩ := drop_get e6
    obtain ⟨l1, l2⟩ := drop_len hp (by simp)
    simp only [List.cons_append, List.nil_append, List.length_cons] at l1
    have hv : val3 d e g = three d e g := by unfold val3 three; omega
    rw [stn_ddd e1 (by omega) rfl e3 ((isDigit_char d).mpr h1) (rdS_lt e5) (rdS_lt e7),
      if_neg (c := isDigit e = false ∨ isDigit g = false) (by rw [(isDigit_char e).mpr h2, (isDigit_char g).mpr h3]; simp), hv,
      if_neg (c := 255 < three d e g) (by omega)]
    rw [show (str.length : Int) - p - 4 = (str.length : Int) - (p + [92, d, e, g].length : Nat) by simp; omega]
    rfl

theorem stnLoop_complete {str : List UInt8} {dc : Bool} (h0 : 0 ∉ str) {s : List UInt8} {cur : Label} {n : Name} (h : RestReads (caseOf dc) s cur n) :
    ∀ fuel p (done : Name), str.drop p = s → p ≤ str.length → str.length + 2 ≤ fuel + p → (wire (done ++ n)).length ≤ 255 →
    stnLoop 255 str dc fuel p ((str.length : Int) - p) cur.length ((labs done).length + 1 + cur.length) (labs done ++ 0 :: cur) (labs done).length =
      ok ⟨(wire (done ++ n)).length, wire (done ++ n)⟩ := by
  have hset : ∀ (done : Name) (cur : Label), (labs done ++ 0 :: cur).set (labs done).length (UInt8.ofNat cur.length) ++ [0] =
      wire (done ++ [cur]) := by
    intro done cur
    rw [set_append_cons, wire_eq_labs, labs_append]; simp [labs]
  have hwl : ∀ (done : Name) (cur : Label), (wire (done ++ [cur])).length = (labs done).length + 1 + cur.length + 1 := by
    intro done cur
    rw [wire_length_labs, labs_append]; simp [labs]; omega
  have hdl : ∀ (done : Name) (cur : Label), (labs done ++ 0 :: cur).length = (labs done).length + 1 + cur.length := by
    intro done cur; simp; omega
  have hge : ∀ {s : List UInt8} {cur : Label} {n : Name}, RestReads (caseOf dc) s cur n → ∀ done : Name,
      (labs done).length + 1 + cur.length + 1 ≤ (wire (done ++ n)).length := by
    intro s cur n h
    induction h with
    | done _ => intro done; rw [hwl]; omega
    | doneDot _ => intro done; rw [hwl]; omega
    | @dot cur s n _ _ _ ih =>
      intro done
      have := ih (done ++ [cur])
      have e : (labs (done ++ [cur])).length = (labs done).length + 1 + cur.length := by rw [labs_append]; simp [labs]; omega
      rw [e, List.append_assoc] at this
      simp only [List.cons_append, List.nil_append] at this
      omega
    | item _ _ ih =>
      intro done
      have := ih done
      simp only [List.length_append, List.length_singleton] at this
      omega
  induction h with
  | @done cur hc =>
    intro fuel p done hp hple hf hlen
    obtain ⟨fuel, rfl⟩ : ∃ k, fuel = k + 1 := ⟨fuel - 1, by omega⟩
    have hpe : p = str.length := by
      have := congrArg List.length hp
      rw [List.length_drop, List.length_nil] at this
      omega
    rw [hwl] at hlen
    rw [show (str.length : Int) - p = 0 by omega, stn_end hpe, if_neg (by omega), hdl, if_neg (by omega), hset, hwl]
  | @doneDot cur hc =>
    intro fuel p done hp hple hf hlen
    obtain ⟨fuel, rfl⟩ : ∃ k, fuel = k + 1 := ⟨fuel - 1, by omega⟩
    obtain ⟨e1, e2⟩ := drop_get hp
    obtain ⟨l1, l2⟩ := drop_len hp (by simp)
    simp only [List.length_singleton] at l1
    rw [hwl] at hlen
    have := List.length_pos_iff.mpr hc
    rw [stn_dot e1 (by omega) rfl, if_neg (by omega), if_neg (by omega), hdl, if_neg (by omega), if_pos (by omega), hset, hwl]
  | @dot cur s n hc hs hr ih =>
    intro fuel p done hp hple hf hlen
    obtain ⟨fuel, rfl⟩ : ∃ k, fuel = k + 1 := ⟨fuel - 1, by omega⟩
    obtain ⟨e1, e2⟩ := drop_get hp
    obtain ⟨l1, l2⟩ := drop_len hp (by simp)
    obtain ⟨l3, l4⟩ := drop_len e2 hs
    have hg := hge (.dot hc hs hr) done
    have := List.length_pos_iff.mpr hc
    rw [stn_dot e1 (by omega) rfl, if_neg (by omega), if_neg (by omega), hdl, if_neg (by omega), if_neg (by omega), hset]
    have := ih fuel (p + 1) (done ++ [cur]) e2 (by omega) (by omega) (by simpa using hlen)
    have e : (labs (done ++ [cur])).length = (labs done).length + 1 + cur.length := by rw [labs_append]; simp [labs]; omega
    rw [e, ← wire_eq_labs, List.append_assoc] at this
    simpa [show (str.length : Int) - p - 1 = (str.length : Int) - (p + 1 : Nat) by omega] using this
  | @item cur t b s n hi hr ih =>
    intro fuel p done hp hple hf hlen
    obtain ⟨fuel, rfl⟩ : ∃ k, fuel = k + 1 := ⟨fuel - 1, by omega⟩
    obtain ⟨e1, e2⟩ := stn_item hi hp h0
    have ht : 1 ≤ t.length := by cases hi <;> simp
    have hlen' := congrArg List.length hp
    rw [List.length_drop, List.length_append] at hlen'
    have hg := hge (.item hi hr) done
    rw [e2, if_neg (by omega), hdl, if_neg (by omega)]
    have := ih fuel (p + t.length) done e1 (by omega) (by omega) hlen
    simpa only [List.length_append, List.length_singleton, List.append_assoc, List.cons_append, ← Nat.add_assoc, Int.natCast_add] using this

/-- What the scanner does at a character: an item, a dot, or no result. -/
theorem stn_look {str : List UInt8} {dc : Bool} {p : Nat} {c : UInt8} {s : List UInt8} (hp : str.drop p = c :: s) (h0 : 0 ∉ str) :
    (∃ t b s', c :: s = t ++ s' ∧ ItemReads (caseOf dc) t b) ∨ c = 46 ∨
    (∀ cap fuel ll len data oc r, stnLoop cap str dc (fuel + 2) p ((str.length : Int) - p) ll len data oc ≠ ok r) := by
  obtain ⟨e1, e2⟩ := drop_get hp
  obtain ⟨l1, l2⟩ := drop_len hp (by simp)
  simp only [List.length_cons] at l1
  by_cases h46 : c = 46
  · exact Or.inr (Or.inl h46)
  by_cases h92 : c = 92
  rotate_left
  · exact Or.inl ⟨[c], _, s, rfl, .plain h46 h92⟩
  subst h92
  cases s with
  | nil =>
    right; right
    intro cap fuel ll len data oc r
    simp only [List.length_nil] at l1
    rw [show (str.length : Int) - p = 1 by omega, stn_dangling e1 rfl (by omega)]
    split <;> simp
  | cons d s =>
    obtain ⟨e3, e4⟩ := drop_get e2
    by_cases hd : isDigit d = true
    rotate_left
    · exact Or.inl ⟨[92, d], d, s, rfl, .esc fun h => hd ((isDigit_char d).mpr h)⟩
    simp only [List.length_cons] at l1
    cases s with
    | nil =>
      right; right
      intro cap fuel ll len data oc r
      simp only [List.length_nil] at l1
      rw [stn_ddd_short e1 (by omega) (by omega) rfl e3 hd]
      split <;> simp
    | cons e s =>
      obtain ⟨e5, e6⟩ := drop_get e4
      simp only [List.length_cons] at l1
      cases s with
      | nil =>
        right; right
        intro cap fuel ll len data oc r
        simp only [List.length_nil] at l1
        rw [stn_ddd (d2 := 0) e1 (by omega) rfl e3 hd (rdS_lt e5) (by simp [rdS, show p + 3 = str.length by omega])]
        split
        · simp
        · rw [if_pos (by right; decide)]; simp
      | cons g s =>
        obtain ⟨e7, e8⟩ := drop_get e6
        by_cases hok : isDigit e = true ∧ isDigit g = true ∧ val3 d e g ≤ 255
        · have hv : val3 d e g = three d e g := by unfold val3 three; omega
          exact Or.inl ⟨[92, d, e, g], _, s, rfl, .ddd ((isDigit_char d).mp hd) ((isDigit_char e).mp hok.1) ((isDigit_char g).mp hok.2.1)
            (by rw [← hv]; exact hok.2.2)⟩
        · right; right
          intro cap fuel ll len data oc r
          rw [stn_ddd e1 (by simp only [List.length_cons] at l1; omega) rfl e3 hd (rdS_lt e5) (rdS_lt e7)]
          split
          · simp
          · split
            · simp
            · rename_i hdig
              split
              · simp
              · rename_i hv
                exfalso
                refine hok ⟨?_, ?_, by omega⟩
                · by_contra h; exact hdig (Or.inl (by simpa using h))
                · by_contra h; exact hdig (Or.inr (by simpa using h))

theorem stnLoop_exact {str : List UInt8} {dc : Bool} (h0 : 0 ∉ str) : ∀ fuel p (done : Name) (cur : Label) (r : CName),
    p ≤ str.length → str.length + 2 ≤ fuel + p → (p = str.length → cur ≠ []) →
    stnLoop 255 str dc fuel p ((str.length : Int) - p) cur.length ((labs done).length + 1 + cur.length) (labs done ++ 0 :: cur) (labs done).length = ok r →
    ∃ n, RestReads (caseOf dc) (str.drop p) cur n ∧ (wire (done ++ n)).length ≤ 255 ∧ r = ⟨(wire (done ++ n)).length, wire (done ++ n)⟩ := by
  intro fuel
  induction fuel with
  | zero => intro p done cur r hp hf; omega
  | succ fuel ih =>
    intro p done cur r hp hf hend h
    have hset : (labs done ++ 0 :: cur).set (labs done).length (UInt8.ofNat cur.length) ++ [0] = wire (done ++ [cur]) := by
      rw [set_append_cons, wire_eq_labs, labs_append]; simp [labs]
    have hwl : (wire (done ++ [cur])).length = (labs done).length + 1 + cur.length + 1 := by
      rw [wire_length_labs, labs_append]; simp [labs]; omega
    have hdl : (labs done ++ 0 :: cur).length = (labs done).length + 1 + cur.length := by simp; omega
    cases hs : str.drop p with
    | nil =>
      have hpe : p = str.length := by
        have := congrArg List.length hs
        rw [List.length_drop, List.length_nil] at this
        omega
      rw [show (str.length : Int) - p = 0 by omega, stn_end hpe] at h
      split at h
      · cases h
      · split at h
        · cases h
        · rw [hset] at h
          cases h
          exact ⟨[cur], .done (hend hpe), by omega, by rw [hwl]⟩
    | cons c s =>
      obtain ⟨e1, e2⟩ := drop_get hs
      obtain ⟨l1, l2⟩ := drop_len hs (by simp)
      rcases stn_look (dc := dc) hs h0 with ⟨t, b, s', he, hi⟩ | rfl | hno
      · obtain ⟨e3, e4⟩ := stn_item hi (hs.trans he) h0
        have ht : 1 ≤ t.length := by cases hi <;> simp
        have hlen' := congrArg List.length (hs.trans he)
        rw [List.length_drop, List.length_append] at hlen'
        rw [e4] at h
        split at h
        · cases h
        · split at h
          · cases h
          · obtain ⟨n, h1, h2, h3⟩ := ih (p + t.length) done (cur ++ [b]) r (by omega) (by omega) (by simp)
              (by simpa only [List.length_append, List.length_singleton, List.append_assoc, List.cons_append, ← Nat.add_assoc, Int.natCast_add] using h)
            rw [e3] at h1
            exact ⟨n, by rw [he]; exact .item hi h1, h2, h3⟩
      · rw [stn_dot e1 (by omega) rfl] at h
        split at h
        · cases h
        · rename_i hlen
          split at h
          · cases h
          · rename_i hcur
            have hc : cur ≠ [] := fun hc => hcur (by simp [hc])
            split at h
            · cases h
            · split at h
              · rename_i hlast
                rw [hset] at h
                cases h
                have : s = [] := by
                  have : s.length = 0 := by simp only [List.length_cons] at l1; omega
                  exact List.length_eq_zero_iff.mp this
                subst this
                exact ⟨[cur], .doneDot hc, by omega, by rw [hwl]⟩
              · rename_i hlast
                have e : (labs (done ++ [cur])).length = (labs done).length + 1 + cur.length := by rw [labs_append]; simp [labs]; omega
                have hsne : s ≠ [] := by
                  rintro rfl
                  simp only [List.length_cons, List.length_nil] at l1
                  omega
                obtain ⟨n, h1, h2, h3⟩ := ih (p + 1) (done ++ [cur]) [] r (by omega) (by omega)
                  (by intro hh; have := drop_len e2 hsne; omega) (by
                    rw [e, ← wire_eq_labs, ← hset]
                    rw [hdl] at h
                    rw [show (str.length : Int) - p - 1 = (str.length : Int) - (p + 1 : Nat) by omega] at h
                    simpa using h)
                rw [e2] at h1
                refine ⟨cur :: n, .dot hc hsne h1, ?_, ?_⟩
                · simpa using h2
                · simpa using h3
      · obtain ⟨k, rfl⟩ : ∃ k, fuel = k + 1 := ⟨fuel - 1, by omega⟩
        exact absurd h (hno _ _ _ _ _ _ _)

end Wdns
