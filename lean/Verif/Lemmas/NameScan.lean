import Verif.Lemmas.NameText

/-! Helper lemmas: the name scanner on arbitrary text. -/

namespace Wdns
open Outcome Spec

theorem tb_cons_ne {c : UInt8} {s : List UInt8} (h : c.toNat ≠ 92) :
    trailingBackslashes (c :: s) = trailingBackslashes s := by
  unfold trailingBackslashes
  rw [List.reverse_cons, List.takeWhile_append]
  have hc : (c == 92) = false := by
    rw [beq_eq_false_iff_ne]; rintro rfl; exact h rfl
  split
  · rename_i h2; simp [hc, ← h2]
  · rfl

theorem tb_cons_bs2 {d : UInt8} {s : List UInt8} :
    trailingBackslashes (92 :: d :: s) % 2 = trailingBackslashes s % 2 := by
  by_cases hd : d.toNat = 92
  · have : d = 92 := UInt8.toNat_inj.mp hd
    subst this
    unfold trailingBackslashes
    simp only [List.reverse_cons, List.append_assoc, List.takeWhile_append]
    split
    · rename_i h2; rw [List.length_reverse] at h2; simp; omega
    · rfl
  · unfold trailingBackslashes
    have hc : (d == 92) = false := by
      rw [beq_eq_false_iff_ne]; rintro rfl; exact hd rfl
    simp only [List.reverse_cons, List.append_assoc, List.takeWhile_append]
    split
    · rename_i h2; rw [List.length_reverse] at h2; simp [hc]; omega
    · rfl

/-- One iteration of the scanner on a character of the text. -/
theorem stn_step {str : List UInt8} {p : Nat} {c : UInt8} (hp : str[p]? = some c) (h0 : c ≠ 0) :
    -- an octet `b` (written with `w` characters; `f`: not escaped)
    (∃ (w : Nat) (b : UInt8) (f : Bool), 1 ≤ w ∧ p + w ≤ str.length ∧
      (f = true → (b = c ∧ c.toNat ≠ 92 ∧ w = 1)) ∧ (f = false → c.toNat = 92) ∧ c.toNat ≠ 46 ∧
      trailingBackslashes (str.drop (p + w)) % 2 = trailingBackslashes (str.drop p) % 2 ∧
      ∀ cap dc fuel ll len data oc,
        stnLoop cap str dc (fuel + 1) p ((str.length : Int) - p) ll len data oc =
        if 255 ≤ len then err .nameOverflow else if cap < data.length + 1 then ub
        else stnLoop cap str dc fuel (p + w) ((str.length : Int) - (p + w : Nat)) (ll + 1) (len + 1)
          (data ++ [if f then caseOf dc b else b]) oc) ∨
    -- a dot
    (c.toNat = 46 ∧ trailingBackslashes (str.drop (p + 1)) = trailingBackslashes (str.drop p) ∧
      ∀ cap dc fuel ll len data oc,
        stnLoop cap str dc (fuel + 1) p ((str.length : Int) - p) ll len data oc =
        if 255 ≤ len then err .nameOverflow
        else if ll = 0 then err .parseError
        else if cap < data.length + 1 then ub
        else if p + 1 = str.length then ok ⟨len + 1, data.set oc (UInt8.ofNat ll) ++ [0]⟩
        else stnLoop cap str dc fuel (p + 1) ((str.length : Int) - (p + 1 : Nat)) 0 (len + 1)
          (data.set oc (UInt8.ofNat ll) ++ [0]) data.length) ∨
    -- a malformed escape
    (c.toNat = 92 ∧ ∀ cap dc fuel ll len data oc,
        stnLoop cap str dc (fuel + 1) p ((str.length : Int) - p) ll len data oc =
        if 255 ≤ len then err .nameOverflow else err .parseError) ∨
    -- a dangling backslash
    (c.toNat = 92 ∧ p + 1 = str.length ∧ trailingBackslashes (str.drop p) = 1 ∧
      ∀ cap dc fuel ll len data oc,
        stnLoop cap str dc (fuel + 2) p ((str.length : Int) - p) ll len data oc =
        if 255 ≤ len then err .nameOverflow else ub) := by
  have hlt := getElem?_some_lt hp
  have hdrop : str.drop p = c :: str.drop (p + 1) := by
    rw [List.drop_eq_getElem_cons hlt]
    rw [List.getElem?_eq_getElem hlt] at hp
    rw [Option.some.inj hp]
  have hdropw : ∀ {q : Nat} {d : UInt8}, str[q]? = some d → str.drop q = d :: str.drop (q + 1) := by
    intro q d h
    have hlt := getElem?_some_lt h
    rw [List.drop_eq_getElem_cons hlt]
    rw [List.getElem?_eq_getElem hlt] at h
    rw [Option.some.inj h]
  by_cases h46 : c.toNat = 46
  · right; left
    refine ⟨h46, ?_, ?_⟩
    · rw [hdrop, tb_cons_ne (by omega)]
    intro cap dc fuel ll len data oc
    rw [stn_dot hp (by omega) h46]
    by_cases hs : p + 1 = str.length
    · simp only [hs, show ((str.length : Int) - p = 1) by omega, if_true]
    · simp only [hs, show ¬ ((str.length : Int) - p = 1) by omega, if_false]
      rw [show (str.length : Int) - p - 1 = (str.length : Int) - (p + 1 : Nat) by omega]
  by_cases h92 : c.toNat = 92
  rotate_left
  · left
    refine ⟨1, c, true, by omega, by omega, fun _ => ⟨rfl, h92, rfl⟩, by simp, h46, ?_, ?_⟩
    · rw [hdrop, tb_cons_ne h92]
    intro cap dc fuel ll len data oc
    rw [stn_char hp (by omega) h0 h92 h46,
      show (str.length : Int) - p - 1 = (str.length : Int) - (p + 1 : Nat) by omega]
    rfl
  have hc92 : c = 92 := UInt8.toNat_inj.mp h92
  by_cases hlast : p + 1 = str.length
  · right; right; right
    refine ⟨h92, hlast, ?_, ?_⟩
    · rw [hdrop, hlast, List.drop_length, hc92]; rfl
    intro cap dc fuel ll len data oc
    rw [show (str.length : Int) - p = 1 by omega, stn_dangling hp h92 hlast]
  obtain ⟨d0, hd0⟩ : ∃ d, str[p + 1]? = some d := ⟨str[p + 1]'(by omega), List.getElem?_eq_getElem _⟩
  by_cases hdig : isDigit d0 = true
  rotate_left
  · left
    have hdig : isDigit d0 = false := by simpa using hdig
    refine ⟨2, d0, false, by omega, by omega, by simp, fun _ => h92, h46, ?_, ?_⟩
    · rw [hdrop, hdropw hd0, hc92, tb_cons_bs2]
    intro cap dc fuel ll len data oc
    rw [stn_esc hp hd0 (by omega) h92 hdig,
      show (str.length : Int) - p - 2 = (str.length : Int) - (p + 2 : Nat) by omega]
    rfl
  by_cases h3 : str.length - p < 3
  · right; right; left
    refine ⟨h92, ?_⟩
    intro cap dc fuel ll len data oc
    rw [stn_ddd_short hp (by omega) (by omega) h92 hd0 hdig]
  obtain ⟨d1, hd1⟩ : ∃ d, str[p + 2]? = some d := ⟨str[p + 2]'(by omega), List.getElem?_eq_getElem _⟩
  obtain ⟨d2, hd2⟩ : ∃ d, rdS str (p + 3) = ok d ∧ (p + 3 < str.length → str[p + 3]? = some d) ∧
      (p + 3 = str.length → d = 0) := by
    by_cases hl : p + 3 < str.length
    · exact ⟨str[p + 3], by simp [rdS, hl], fun _ => List.getElem?_eq_getElem _, by omega⟩
    · exact ⟨0, by simp [rdS, show p + 3 = str.length by omega], by omega, fun _ => rfl⟩
  have heq := fun cap dc fuel ll len data oc => stn_ddd (cap := cap) (dc := dc) (fuel := fuel) (ll := ll)
    (len := len) (data := data) (oc := oc) hp (show (3 : Int) ≤ (str.length : Int) - p by omega) h92 hd0 hdig
    (rdS_lt hd1) hd2.1
  by_cases hbad : (isDigit d1 = false ∨ isDigit d2 = false) ∨ 255 < val3 d0 d1 d2
  · right; right; left
    refine ⟨h92, ?_⟩
    intro cap dc fuel ll len data oc
    rw [heq]
    rcases hbad with h | h
    · simp only [h, if_true]
    · simp only [h, if_true]; split_ifs <;> rfl
  · left
    rw [not_or] at hbad
    have hl : p + 3 < str.length := by
      by_contra hl
      have := hd2.2.2 (by omega)
      apply hbad.1; right; rw [this]; decide
    refine ⟨4, UInt8.ofNat (val3 d0 d1 d2), false, by omega, by omega, by simp, fun _ => h92, h46, ?_, ?_⟩
    · have hn0 : d0.toNat ≠ 92 := by
        intro h; unfold isDigit at hdig; simp at hdig; omega
      have hn1 : d1.toNat ≠ 92 := by
        intro h; apply hbad.1; left; unfold isDigit; simp; omega
      have hn2 : d2.toNat ≠ 92 := by
        intro h; apply hbad.1; right; unfold isDigit; simp; omega
      rw [hdrop, hdropw hd0, hc92, tb_cons_bs2, hdropw hd1, tb_cons_ne hn1, hdropw (hd2.2.1 hl), tb_cons_ne hn2]
    intro cap dc fuel ll len data oc
    rw [heq, if_neg hbad.1, if_neg hbad.2,
      show (str.length : Int) - p - 4 = (str.length : Int) - (p + 4 : Nat) by omega]
    rfl

/-! ### What the scanner returns -/

theorem stnLoop_sound {str : List UInt8} {dc : Bool} (h0 : ∀ c ∈ str, c ≠ 0) :
    ∀ fuel p (done : Name) (cur : Label),
    (∀ l ∈ done, 1 ≤ l.length) → (labs done).length + 1 + cur.length ≤ 255 → p ≤ str.length →
    (p = str.length → cur ≠ []) → str.length + 2 ≤ fuel + p →
    (∃ n : Name, (∀ l ∈ n, 1 ≤ l.length) ∧ (wire n).length ≤ 255 ∧ n ≠ [] ∧
      stnLoop 255 str dc fuel p ((str.length : Int) - p) cur.length ((labs done).length + 1 + cur.length)
        (labs done ++ 0 :: cur) (labs done).length = ok ⟨(wire n).length, wire n⟩) ∨
    stnLoop 255 str dc fuel p ((str.length : Int) - p) cur.length ((labs done).length + 1 + cur.length)
        (labs done ++ 0 :: cur) (labs done).length = err .parseError ∨
    stnLoop 255 str dc fuel p ((str.length : Int) - p) cur.length ((labs done).length + 1 + cur.length)
        (labs done ++ 0 :: cur) (labs done).length = err .nameOverflow ∨
    (stnLoop 255 str dc fuel p ((str.length : Int) - p) cur.length ((labs done).length + 1 + cur.length)
        (labs done ++ 0 :: cur) (labs done).length = ub ∧ trailingBackslashes (str.drop p) % 2 = 1) := by
  intro fuel
  induction fuel with
  | zero => intro p done cur _ _ hp _ hf; omega
  | succ fuel ih =>
    intro p done cur hne hlen hp hend hf
    have hset : (labs done ++ 0 :: cur).set (labs done).length (UInt8.ofNat cur.length) ++ [0] =
        wire (done ++ [cur]) := by
      rw [set_append_cons, wire_eq_labs, labs_append]; simp [labs]
    have hwl : (wire (done ++ [cur])).length = (labs done).length + 1 + cur.length + 1 := by
      rw [wire_length_labs, labs_append]; simp [labs]; omega
    have hne' : cur.length ≠ 0 → ∀ l ∈ done ++ [cur], 1 ≤ l.length := by
      intro hc l hm
      rcases List.mem_append.mp hm with h | h
      · exact hne l h
      · rw [List.mem_singleton.mp h]; omega
    by_cases hpe : p = str.length
    · rw [show (str.length : Int) - p = 0 by omega, stn_end hpe]
      split_ifs with h1 h2
      · exact .inr (.inr (.inl rfl))
      · simp at h2; omega
      · left
        refine ⟨done ++ [cur], hne' ?_, by omega, by simp, ?_⟩
        · have := hend hpe; intro h; exact this (List.length_eq_zero_iff.mp h)
        · rw [hset, hwl]
    · obtain ⟨c, hc⟩ : ∃ c, str[p]? = some c := ⟨str[p]'(by omega), List.getElem?_eq_getElem _⟩
      rcases stn_step hc (h0 c (List.mem_of_getElem? hc)) with
        ⟨w, b, f, w1, w2, _, _, _, w4, w5⟩ | ⟨_, w4, w5⟩ | ⟨_, w5⟩ | ⟨_, w1, w2, w5⟩
      · rw [w5]
        generalize (if f = true then caseOf dc b else b) = v
        split_ifs with h1 h2
        · exact .inr (.inr (.inl rfl))
        · simp at h2; omega
        · have := ih (p + w) done (cur ++ [v]) hne (by simp; omega) (by omega) (by simp) (by omega)
          rw [← w4]
          simpa only [List.length_append, List.length_singleton, List.append_assoc, List.cons_append,
            ← Nat.add_assoc] using this
      · rw [w5]
        split_ifs with h1 h2 h3 h4
        · exact .inr (.inr (.inl rfl))
        · exact .inr (.inl rfl)
        · simp at h3; omega
        · left
          refine ⟨done ++ [cur], hne' h2, by omega, by simp, ?_⟩
          rw [hset, hwl]
        · have hl : (labs (done ++ [cur])).length = (labs done).length + 1 + cur.length := by
            rw [labs_append]; simp [labs]; omega
          have := ih (p + 1) (done ++ [cur]) [] (hne' h2) (by rw [hl]; simp; omega) (by omega)
            (by omega) (by omega)
          rw [hl, ← wire_eq_labs] at this
          rw [hset, ← w4]
          have hlen2 : (labs done ++ 0 :: cur).length = (labs done).length + 1 + cur.length := by
            simp; omega
          rw [hlen2]
          simpa using this
      · rw [w5]
        split_ifs
        · exact .inr (.inr (.inl rfl))
        · exact .inr (.inl rfl)
      · obtain ⟨f', rfl⟩ : ∃ f', fuel = f' + 1 := ⟨fuel - 1, by omega⟩
        rw [w5]
        split_ifs
        · exact .inr (.inr (.inl rfl))
        · exact .inr (.inr (.inr ⟨rfl, by rw [w2]⟩))

/-- The size of the block does not matter from 255 bytes on: no write beyond it is attempted. -/
theorem stnLoop_cap {str : List UInt8} {dc : Bool} (h0 : ∀ c ∈ str, c ≠ 0) {cap : Nat} (hcap : 255 ≤ cap) :
    ∀ fuel p ll len data oc, len = data.length → len ≤ 255 → p ≤ str.length →
    str.length + 2 ≤ fuel + p →
    stnLoop cap str dc fuel p ((str.length : Int) - p) ll len data oc =
    stnLoop 255 str dc fuel p ((str.length : Int) - p) ll len data oc := by
  intro fuel
  induction fuel with
  | zero => intros; rfl
  | succ fuel ih =>
    intro p ll len data oc hl h255 hp hf
    by_cases hpe : p = str.length
    · rw [show (str.length : Int) - p = 0 by omega, stn_end hpe, stn_end hpe]
      by_cases h : len = 255
      · simp [h]
      · simp [h, show ¬ cap < data.length + 1 by omega, show ¬ 255 < data.length + 1 by omega]
    · obtain ⟨c, hc⟩ : ∃ c, str[p]? = some c := ⟨str[p]'(by omega), List.getElem?_eq_getElem _⟩
      rcases stn_step hc (h0 c (List.mem_of_getElem? hc)) with
        ⟨w, b, f, w1, w2, _, _, _, w4, w5⟩ | ⟨_, w4, w5⟩ | ⟨_, w5⟩ | ⟨_, w1, w2, w5⟩
      · rw [w5, w5]
        by_cases h : 255 ≤ len
        · simp [h]
        · simp only [h, show ¬ cap < data.length + 1 by omega, show ¬ 255 < data.length + 1 by omega,
            if_false]
          exact ih _ _ _ _ _ (by simp; omega) (by omega) (by omega) (by omega)
      · rw [w5, w5]
        by_cases h : 255 ≤ len
        · simp [h]
        · simp only [h, show ¬ cap < data.length + 1 by omega, show ¬ 255 < data.length + 1 by omega,
            if_false]
          by_cases h1 : ll = 0
          · simp [h1]
          by_cases h2 : p + 1 = str.length
          · simp [h2]
          · simp only [h1, h2, if_false]
            exact ih _ _ _ _ _ (by simp; omega) (by omega) (by omega) (by omega)
      · rw [w5, w5]
      · obtain ⟨f', rfl⟩ : ∃ f', fuel = f' + 1 := ⟨fuel - 1, by omega⟩
        rw [w5, w5]

/-! ### Lower-casing commutes -/

/-- The effect of lower-casing every octet of the result. -/
def lowOut (o : Outcome CName) : Outcome CName := o >>= fun c => ok ⟨c.len, c.data.map lower⟩

theorem map_set {α β} (f : α → β) (l : List α) (i : Nat) (a : α) :
    (l.set i a).map f = (l.map f).set i (f a) := by simp

/-- Both scanners proceed in lock-step; their results agree ignoring letter case. -/
theorem stnLoop_lower {str : List UInt8} (h0 : ∀ c ∈ str, c ≠ 0) :
    ∀ fuel p ll len data data' oc, data.map lower = data'.map lower → p ≤ str.length →
    str.length + 2 ≤ fuel + p →
    lowOut (stnLoop 255 str true fuel p ((str.length : Int) - p) ll len data oc) =
    lowOut (stnLoop 255 str false fuel p ((str.length : Int) - p) ll len data' oc) := by
  intro fuel
  induction fuel with
  | zero => intros; rfl
  | succ fuel ih =>
    intro p ll len data data' oc hd hp hf
    have hlen : data.length = data'.length := by
      have := congrArg List.length hd; simpa using this
    have hset : ((data.set oc (UInt8.ofNat ll)) ++ [0]).map lower =
        ((data'.set oc (UInt8.ofNat ll)) ++ [0]).map lower := by
      simp only [List.map_append, map_set, hd]
    by_cases hpe : p = str.length
    · rw [show (str.length : Int) - p = 0 by omega, stn_end hpe, stn_end hpe, hlen]
      split_ifs <;> simp [lowOut]
      simpa using hset
    · obtain ⟨c, hc⟩ : ∃ c, str[p]? = some c := ⟨str[p]'(by omega), List.getElem?_eq_getElem _⟩
      rcases stn_step hc (h0 c (List.mem_of_getElem? hc)) with
        ⟨w, b, f, w1, w2, _, _, _, w4, w5⟩ | ⟨_, w4, w5⟩ | ⟨_, w5⟩ | ⟨_, w1, w2, w5⟩
      · rw [w5, w5, hlen]
        by_cases h : 255 ≤ len
        · simp [h]
        by_cases h' : 255 < data'.length + 1
        · simp [h, h']
        · simp only [h, h', if_false]
          apply ih _ _ _ _ _ _ _ (by omega) (by omega)
          simp only [List.map_append, hd, List.map_cons, List.map_nil]
          cases f <;> simp [caseOf, lower_lower]
      · rw [w5, w5, hlen]
        by_cases h : 255 ≤ len
        · simp [h]
        by_cases h1 : ll = 0
        · simp [h, h1]
        by_cases h' : 255 < data'.length + 1
        · simp [h, h1, h']
        by_cases h2 : p + 1 = str.length
        · simp only [h, h1, h', h2, if_true, if_false, lowOut, ok_bind, hset]
        · simp only [h, h1, h', h2, if_false]
          exact ih _ _ _ _ _ _ hset (by omega) (by omega)
      · rw [w5, w5]
      · obtain ⟨f', rfl⟩ : ∃ f', fuel = f' + 1 := ⟨fuel - 1, by omega⟩
        rw [w5, w5]

theorem labs_lower_length (n : Name) : (labs (lowerName n)).length = (labs n).length := by
  induction n with
  | nil => rfl
  | cons l n ih =>
    have : lowerName (l :: n) = l.map lower :: lowerName n := rfl
    rw [this, labs_cons_length, labs_cons_length, ih]; simp

/-- Without backslashes the two scanners produce the same labels, one lower-cased. -/
theorem stnLoop_plain {str : List UInt8} (h0 : ∀ c ∈ str, c ≠ 0) (hb : ∀ c ∈ str, c.toNat ≠ 92) :
    ∀ fuel p (done : Name) (cur : Label), p ≤ str.length → str.length + 2 ≤ fuel + p →
    (∀ l ∈ done, 1 ≤ l.length) → (p = str.length → cur ≠ []) →
    (∃ k n, (∀ l ∈ n, 1 ≤ l.length) ∧ (wire n).length ≤ 255 ∧ stnLoop 255 str false fuel p ((str.length : Int) - p) cur.length
        ((labs done).length + 1 + cur.length) (labs done ++ 0 :: cur) (labs done).length =
        ok ⟨k, wire n⟩ ∧
      stnLoop 255 str true fuel p ((str.length : Int) - p) cur.length
        ((labs done).length + 1 + cur.length) (labs (lowerName done) ++ 0 :: cur.map lower)
        (labs done).length = ok ⟨k, wire (lowerName n)⟩) ∨
    ((∀ c, stnLoop 255 str false fuel p ((str.length : Int) - p) cur.length
        ((labs done).length + 1 + cur.length) (labs done ++ 0 :: cur) (labs done).length ≠ ok c) ∧
      stnLoop 255 str true fuel p ((str.length : Int) - p) cur.length
        ((labs done).length + 1 + cur.length) (labs (lowerName done) ++ 0 :: cur.map lower)
        (labs done).length =
      stnLoop 255 str false fuel p ((str.length : Int) - p) cur.length
        ((labs done).length + 1 + cur.length) (labs done ++ 0 :: cur) (labs done).length) := by
  intro fuel
  induction fuel with
  | zero => intro p done cur hp hf _ _; omega
  | succ fuel ih =>
    intro p done cur hp hf hdone hcur
    have hset : (labs done ++ 0 :: cur).set (labs done).length (UInt8.ofNat cur.length) ++ [0] =
        wire (done ++ [cur]) := by
      rw [set_append_cons, wire_eq_labs, labs_append]; simp [labs]
    have hlow : lowerName (done ++ [cur]) = lowerName done ++ [cur.map lower] := by simp [lowerName]
    have hset' : (labs (lowerName done) ++ 0 :: cur.map lower).set (labs done).length
        (UInt8.ofNat cur.length) ++ [0] = wire (lowerName (done ++ [cur])) := by
      rw [← labs_lower_length, set_append_cons, hlow, wire_eq_labs, labs_append]; simp [labs]
    have hwl : (wire (done ++ [cur])).length = (labs done).length + 1 + cur.length + 1 := by
      rw [wire_eq_labs, labs_append]; simp [labs]; omega
    have hdone' : cur ≠ [] → ∀ l ∈ done ++ [cur], 1 ≤ l.length := by
      intro hc l hl
      rcases List.mem_append.mp hl with hl | hl
      · exact hdone l hl
      · rw [List.mem_singleton] at hl; subst hl; exact List.length_pos_iff.mpr hc
    have hlen : (labs done ++ 0 :: cur).length = (labs done).length + 1 + cur.length := by simp; omega
    have hlen' : (labs (lowerName done) ++ 0 :: cur.map lower).length =
        (labs done).length + 1 + cur.length := by simp [labs_lower_length]; omega
    by_cases hpe : p = str.length
    · rw [show (str.length : Int) - p = 0 by omega, stn_end hpe, stn_end hpe, hset, hset', hlen, hlen']
      split_ifs with h1 h2
      · exact .inr ⟨by simp, rfl⟩
      · exact .inr ⟨by simp, rfl⟩
      · exact .inl ⟨_, _, hdone' (hcur hpe), by omega, rfl, rfl⟩
    · obtain ⟨c, hc⟩ : ∃ c, str[p]? = some c := ⟨str[p]'(by omega), List.getElem?_eq_getElem _⟩
      have hcb := hb c (List.mem_of_getElem? hc)
      rcases stn_step hc (h0 c (List.mem_of_getElem? hc)) with
        ⟨w, b, f, w1, w2, _, wf, _, w4, w5⟩ | ⟨_, w4, w5⟩ | ⟨h, _⟩ | ⟨h, _⟩
      · rw [w5, w5, hlen, hlen']
        have hf : f = true := by
          cases f
          · exact absurd (wf rfl) hcb
          · rfl
        subst hf
        by_cases h1 : 255 ≤ (labs done).length + 1 + cur.length
        · right; simp [h1]
        by_cases h2 : 255 < (labs done).length + 1 + cur.length + 1
        · right; simp [h1, h2]
        simp only [h1, h2, if_false, if_true]
        have := ih (p + w) done (cur ++ [b]) (by omega) (by omega) hdone (by simp)
        simpa only [List.length_append, List.length_singleton, List.append_assoc, List.cons_append,
            ← Nat.add_assoc, List.map_append, List.map_cons, List.map_nil, caseOf,
            Bool.false_eq_true, if_false, if_true] using this
      · rw [w5, w5, hset, hset', hlen, hlen']
        by_cases h1 : 255 ≤ (labs done).length + 1 + cur.length
        · right; simp [h1]
        by_cases h3 : cur.length = 0
        · simp only [if_neg h1, if_pos h3]; exact .inr ⟨by simp, trivial⟩
        by_cases h2 : 255 < (labs done).length + 1 + cur.length + 1
        · simp only [if_neg h1, if_neg h3, if_pos h2]; exact .inr ⟨by simp, trivial⟩
        by_cases h4 : p + 1 = str.length
        · simp only [h1, h2, h3, h4, if_false, if_true]; exact .inl ⟨_, _, hdone' (by
            intro e; exact h3 (by simp [e])), by omega, rfl, rfl⟩
        simp only [h1, h2, h3, h4, if_false]
        have hl : (labs (done ++ [cur])).length = (labs done).length + 1 + cur.length := by
          rw [labs_append]; simp [labs]; omega
        have := ih (p + 1) (done ++ [cur]) [] (by omega) (by omega) (hdone' (by
          intro e; exact h3 (by simp [e]))) (by intro e; exact absurd e h4)
        rw [hl, ← wire_eq_labs, List.map_nil, ← wire_eq_labs] at this
        simpa using this
      · exact absurd h hcb
      · exact absurd h hcb

/-! ### Trailing dot -/

theorem stnLoop_trailing_dot {s : List UInt8} {dc : Bool} (h0 : ∀ c ∈ s, c ≠ 0)
    (hb : ∀ c ∈ s, c.toNat ≠ 92) (hlast : s.getLast? ≠ some 46) :
    ∀ fuel p ll len data oc, p ≤ s.length → s.length + 2 ≤ fuel + p → (p = s.length → ll ≠ 0) →
    len ≤ 255 →
    stnLoop 255 (s ++ [46]) dc fuel p (((s ++ [46]).length : Int) - p) ll len data oc =
    stnLoop 255 s dc fuel p ((s.length : Int) - p) ll len data oc := by
  intro fuel
  induction fuel with
  | zero => intros; rfl
  | succ fuel ih =>
    intro p ll len data oc hp hf hll h255
    have e2 : ((s ++ [46] : List UInt8).length : Int) - (p : Int) - 1 =
        ((s ++ [46] : List UInt8).length : Int) - ((p + 1 : Nat) : Int) := by omega
    have e3 : (s.length : Int) - p - 1 = (s.length : Int) - (p + 1 : Nat) := by omega
    by_cases hpe : p = s.length
    · have hc : (s ++ [46])[p]? = some 46 := by rw [hpe]; simp
      rw [show (s.length : Int) - p = 0 by omega, stn_end hpe, stn_dot hc (by simp; omega) (by decide)]
      have h1 : ((s ++ [46]).length : Int) - p = 1 := by simp; omega
      simp only [h1, if_true, hll hpe, if_false]
      by_cases hl : len = 255
      · simp [hl]
      · simp [hl, show ¬ 255 ≤ len by omega]
    · have hlt : p < s.length := by omega
      obtain ⟨c, hc⟩ : ∃ c, s[p]? = some c := ⟨s[p], List.getElem?_eq_getElem _⟩
      have hc' : (s ++ [46])[p]? = some c := by rw [List.getElem?_append_left hlt]; exact hc
      have hc0 := h0 c (List.mem_of_getElem? hc)
      have hcb := hb c (List.mem_of_getElem? hc)
      by_cases h46 : c.toNat = 46
      · rw [stn_dot hc' (by simp; omega) h46, stn_dot hc (by omega) h46]
        have hne : p + 1 ≠ s.length := by
          intro h
          apply hlast
          rw [List.getLast?_eq_getElem?, ← h, Nat.add_sub_cancel, hc]
          congr 1; exact UInt8.toNat_inj.mp h46
        have e1 : ¬ (((s ++ [46] : List UInt8).length : Int) - (p : Int) = 1) := by simp; omega
        rw [if_neg e1, if_neg (show ¬ (s.length : Int) - p = 1 by omega)]
        by_cases g1 : 255 ≤ len
        · simp [g1]
        have := ih (p + 1) 0 (len + 1) (data.set oc (UInt8.ofNat ll) ++ [0]) data.length (by omega) (by omega)
          (by omega) (by omega)
        rw [e2, e3, this]
      · rw [stn_char hc' (by simp; omega) hc0 hcb h46, stn_char hc (by omega) hc0 hcb h46]
        by_cases g1 : 255 ≤ len
        · simp [g1]
        have := ih (p + 1) (ll + 1) (len + 1) (data ++ [caseOf dc c]) oc (by omega) (by omega)
          (by omega) (by omega)
        rw [e2, e3, this]

/-- Enough fuel is enough (plain text). -/
theorem stnLoop_fuel_plain {s : List UInt8} {dc : Bool} (h0 : ∀ c ∈ s, c ≠ 0)
    (hb : ∀ c ∈ s, c.toNat ≠ 92) :
    ∀ fuel p ll len data oc, p ≤ s.length → s.length + 2 ≤ fuel + p →
    stnLoop 255 s dc (fuel + 1) p ((s.length : Int) - p) ll len data oc =
    stnLoop 255 s dc fuel p ((s.length : Int) - p) ll len data oc := by
  intro fuel
  induction fuel with
  | zero => intros; omega
  | succ fuel ih =>
    intro p ll len data oc hp hf
    have e2 : (s.length : Int) - (p : Int) - 1 = (s.length : Int) - ((p + 1 : Nat) : Int) := by omega
    by_cases hpe : p = s.length
    · rw [show (s.length : Int) - p = 0 by omega, stn_end hpe, stn_end hpe]
    · obtain ⟨c, hc⟩ : ∃ c, s[p]? = some c := ⟨s[p]'(by omega), List.getElem?_eq_getElem _⟩
      have hc0 := h0 c (List.mem_of_getElem? hc)
      have hcb := hb c (List.mem_of_getElem? hc)
      by_cases h46 : c.toNat = 46
      · rw [stn_dot hc (by omega) h46, stn_dot hc (by omega) h46, e2,
          ih (p + 1) 0 _ _ _ (by omega) (by omega)]
      · rw [stn_char hc (by omega) hc0 hcb h46, stn_char hc (by omega) hc0 hcb h46, e2,
          ih (p + 1) _ _ _ _ (by omega) (by omega)]

/-! ### Empty labels -/

/-- Scanning plain text up to offset `q`: either fails before, or stands at `q`. -/
theorem stn_reach {s : List UInt8} {dc : Bool} (h0 : ∀ c ∈ s, c ≠ 0) (hb : ∀ c ∈ s, c.toNat ≠ 92) :
    ∀ k fuel p ll len data oc, p + k < s.length → k ≤ fuel →
    (∀ c, stnLoop 255 s dc fuel p ((s.length : Int) - p) ll len data oc ≠ ok c) ∨
    ∃ ll' len' data' oc', (k = 0 → ll' = ll) ∧ (0 < k → s[p + k - 1]? = some 46 → ll' = 0) ∧
      stnLoop 255 s dc fuel p ((s.length : Int) - p) ll len data oc =
      stnLoop 255 s dc (fuel - k) (p + k) ((s.length : Int) - (p + k : Nat)) ll' len' data' oc' := by
  intro k
  induction k with
  | zero => intro fuel p ll len data oc _ _; exact .inr ⟨ll, len, data, oc, by simp, by simp, rfl⟩
  | succ k ih =>
    intro fuel p ll len data oc hp hf
    obtain ⟨f, rfl⟩ : ∃ f, fuel = f + 1 := ⟨fuel - 1, by omega⟩
    have hlt : p < s.length := by omega
    obtain ⟨c, hc⟩ : ∃ c, s[p]? = some c := ⟨s[p], List.getElem?_eq_getElem _⟩
    have hc0 := h0 c (List.mem_of_getElem? hc)
    have hcb := hb c (List.mem_of_getElem? hc)
    have hsub : (s.length : Int) - p - 1 = (s.length : Int) - (p + 1 : Nat) := by omega
    have hfk : f + 1 - (k + 1) = f - k := by omega
    have hpk : p + 1 + k = p + (k + 1) := by omega
    by_cases h46 : c.toNat = 46
    · rw [stn_dot hc (by omega) h46, if_neg (show ¬ (s.length : Int) - p = 1 by omega), hsub]
      split_ifs
      · exact .inl (by simp)
      · exact .inl (by simp)
      · exact .inl (by simp)
      · rcases ih f (p + 1) 0 (len + 1) (data.set oc (UInt8.ofNat ll) ++ [0]) data.length (by omega)
          (by omega) with h | ⟨ll', len', data', oc', a, b, e⟩
        · exact .inl h
        · right
          refine ⟨ll', len', data', oc', by intro h; exact absurd h (by simp), ?_, ?_⟩
          · intro _ h
            by_cases hk : k = 0
            · exact a hk
            · exact b (by omega) (by rw [show p + 1 + k - 1 = p + (k + 1) - 1 by omega]; exact h)
          · rw [e, hfk, hpk]
    · rw [stn_char hc (by omega) hc0 hcb h46, hsub]
      split_ifs
      · exact .inl (by simp)
      · exact .inl (by simp)
      · rcases ih f (p + 1) (ll + 1) (len + 1) (data ++ [caseOf dc c]) oc (by omega)
          (by omega) with h | ⟨ll', len', data', oc', a, b, e⟩
        · exact .inl h
        · right
          refine ⟨ll', len', data', oc', by intro h; exact absurd h (by simp), ?_, ?_⟩
          · intro _ h
            by_cases hk : k = 0
            · subst hk
              simp only [Nat.zero_add, Nat.add_sub_cancel] at h
              rw [hc] at h
              exact absurd (by rw [Option.some.inj h]; rfl) h46
            · exact b (by omega) (by rw [show p + 1 + k - 1 = p + (k + 1) - 1 by omega]; exact h)
          · rw [e, hfk, hpk]

end Wdns
