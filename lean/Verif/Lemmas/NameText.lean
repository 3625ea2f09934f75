import Verif.Spec.NameText
import Verif.Lemmas.NameOps

/-! Helper lemmas for `domainToStr` and `strToName`. -/

namespace Wdns
open Outcome Spec

/-! ### printing -/

theorem escByte_length_le (c : UInt8) : (escByte c).length ≤ 4 := by
  unfold escByte; split_ifs <;> simp

theorem escByte_length_pos (c : UInt8) : 1 ≤ (escByte c).length := by
  unfold escByte; split_ifs <;> simp

theorem labelText_length_le (l : Label) : (labelText l).length ≤ 4 * l.length := by
  induction l with
  | nil => simp [labelText]
  | cons c l ih =>
    have := escByte_length_le c
    simp only [labelText, List.flatMap_cons, List.length_append, List.length_cons] at ih ⊢; omega

/-- Text of the labels of a name, each followed by a dot (empty for the root). -/
def dotText (n : Name) : List UInt8 := n.flatMap (fun l => labelText l ++ [46])

theorem dotText_cons (l : Label) (n : Name) : dotText (l :: n) = labelText l ++ 46 :: dotText n := by
  simp [dotText]

theorem dotText_length_le (n : Name) : (dotText n).length + 3 * n.length ≤ 4 * (labs n).length := by
  induction n with
  | nil => simp [dotText]
  | cons l n ih =>
    have := labelText_length_le l
    rw [dotText_cons, labs_cons_length]
    simp only [List.length_append, List.length_cons]; omega

theorem dtsInner_spec {cap : Nat} {mem : List UInt8} : ∀ (l : Label) src rem out,
    l <+: mem.drop src → l.length ≤ rem → out.length + (labelText l).length + 1 ≤ cap →
    dtsInner cap mem l.length src rem out =
      ok (src + l.length, rem - l.length, out ++ labelText l) := by
  intro l
  induction l with
  | nil => intro src rem out _ _ _; simp [dtsInner, labelText]
  | cons c l ih =>
    intro src rem out hst hr hc
    rw [prefix_drop_cons] at hst
    simp only [List.length_cons] at hr ⊢
    have hlt : labelText (c :: l) = escByte c ++ labelText l := by simp [labelText]
    rw [hlt] at hc ⊢
    simp only [List.length_append] at hc
    rw [dtsInner, if_pos (by omega)]
    simp only [rd, hst.1, ok_bind]
    have hstep : ∀ out', out'.length = out.length + (escByte c).length →
        dtsInner cap mem l.length (src + 1) (rem - 1) out' =
          ok (src + (l.length + 1), rem - (l.length + 1), out' ++ labelText l) := by
      intro out' ho
      rw [ih _ _ _ hst.2 (by omega) (by omega)]
      congr 2
      · omega
      · congr 1; omega
    have hne : (escByte c) = if c.toNat = 46 ∨ c.toNat = 92 then [92, c]
        else if 33 ≤ c.toNat ∧ c.toNat ≤ 126 then [c] else 92 :: dec3 c := rfl
    split_ifs with h1 h2
    · rw [if_pos h1] at hne
      rw [hne] at hc hstep ⊢
      simp only [List.length_cons, List.length_nil] at hc
      rw [wrN_ok (by simp; omega), ok_bind, hstep _ (by simp)]
      simp
    · rw [if_neg h1, if_pos h2] at hne
      rw [hne] at hc hstep ⊢
      simp only [List.length_cons, List.length_nil] at hc
      rw [wr_ok (by omega), ok_bind, hstep _ (by simp)]
      simp
    · rw [if_neg h1, if_neg h2] at hne
      rw [hne] at hc hstep ⊢
      simp only [List.length_cons, dec3, List.length_nil] at hc
      rw [hstep _ (by simp)]
      simp
    · rename_i h3
      rw [if_neg h1, if_neg h2] at hne
      rw [hne] at hc
      simp only [List.length_cons, dec3, List.length_nil] at hc
      omega

theorem dtsOuter_spec {cap : Nat} {mem : List UInt8} : ∀ (n : Name) src rem br out fuel,
    (∀ l ∈ n, LabelOK l) → wire n <+: mem.drop src → (wire n).length ≤ rem →
    out.length + (dotText n).length + 1 ≤ cap → n.length < fuel →
    dtsOuter cap mem fuel src rem (mem[src]?.getD 0) br out =
      ok (br + (labs n).length, out ++ dotText n) := by
  intro n
  induction n with
  | nil =>
    intro src rem br out fuel _ hst _ _ hf
    rw [stored_nil] at hst
    obtain ⟨f, rfl⟩ : ∃ f, fuel = f + 1 := ⟨fuel - 1, by omega⟩
    simp [dtsOuter, hst, labs, dotText]
  | cons l n ih =>
    intro src rem br out fuel hok hst hr hc hf
    obtain ⟨h1, h2, h3⟩ := stored_cons.mp hst
    have hlk := hok l (by simp)
    have e := ofNat_label_toNat hlk
    have h11 := hlk.1
    rw [wire_cons_length] at hr
    simp only [List.length_cons] at hf
    obtain ⟨f, rfl⟩ : ∃ f, fuel = f + 1 := ⟨fuel - 1, by omega⟩
    rw [dotText_cons] at hc ⊢
    simp only [List.length_append, List.length_cons] at hc
    have hwp := wire_length_pos n
    rw [dtsOuter, h1]
    simp only [Option.getD_some]
    rw [if_pos ⟨by omega, by rw [Ne, u8_eq_zero, e]; omega⟩, e,
      dtsInner_spec l _ _ _ h2 (by omega) (by omega)]
    simp only [ok_bind]
    rw [wr_ok (by simp; omega), ok_bind]
    have hlt : src + 1 + l.length < mem.length := by
      have := prefix_drop_length h3 (wire_ne_nil n); omega
    rw [rd_of_lt hlt, ok_bind]
    have := ih (src + 1 + l.length) (rem - 1 - l.length) (br + (l.length + 1))
      (out ++ labelText l ++ [46]) f (fun l hm => hok l (by simp [hm])) h3 (by omega)
      (by simp; omega) (by omega)
    rw [List.getElem?_eq_getElem hlt, Option.getD_some] at this
    rw [this, labs_cons_length]
    congr 2
    · omega
    · simp

theorem domainToStr_spec {cap : Nat} {n : Name} {rest : List UInt8} (hn : WF n) (hcap : 1025 ≤ cap) :
    domainToStr cap (wire n ++ rest) (wire n).length = ok ((wire n).length, nameText n) := by
  have hw := wire_length_labs n
  have h255 := hn.2
  have hd := dotText_length_le n
  have hlen : n.length ≤ (labs n).length := by
    clear hn hw h255 hd
    induction n with
    | nil => simp
    | cons l n ih => rw [labs_cons_length, List.length_cons]; omega
  have hpos : 0 < (wire n ++ rest).length := by simp; have := wire_length_pos n; omega
  have := dtsOuter_spec (cap := cap) (mem := wire n ++ rest) n 0 (wire n).length 0 []
    ((wire n).length + 1) hn.1 (by simp) (by omega) (by simp; omega) (by omega)
  rw [List.getElem?_eq_getElem hpos, Option.getD_some] at this
  simp only [domainToStr, rd_of_lt hpos, ok_bind, this]
  cases n with
  | nil =>
    simp [labs, dotText, nameText, wire, wr, show 1 ≤ cap by omega, show 1 + 1 ≤ cap by omega]
  | cons l n =>
    rw [if_neg (by rw [labs_cons_length]; omega)]
    rw [wr_ok (by simp; omega), ok_bind]
    simp only [nameText, List.nil_append, Nat.zero_add, if_neg (List.cons_ne_nil l n)]
    rw [hw]; rfl

/-! ### scanning: one-step equations -/

theorem rdS_lt {s : List UInt8} {p : Nat} {c : UInt8} (h : s[p]? = some c) : rdS s p = ok c := by
  have hlt := getElem?_some_lt h
  rw [List.getElem?_eq_getElem hlt] at h
  simpa [rdS, hlt] using h

theorem stn_end {cap str dc fuel p ll len data oc} (hp : p = str.length) :
    stnLoop cap str dc (fuel + 1) p 0 ll len data oc =
      if len = 255 then err .nameOverflow
      else if cap < data.length + 1 then ub
      else ok ⟨len + 1, data.set oc (UInt8.ofNat ll) ++ [0]⟩ := by
  subst hp
  simp only [stnLoop, rdS, Nat.lt_irrefl, if_false, if_true, ok_bind, maxlenName, wr, List.length_set,
    Nat.add_sub_cancel]
  by_cases hl : len = 255
  · simp only [hl, if_true]
  simp only [hl, if_false]
  by_cases hc : data.length + 1 ≤ cap
  · rw [if_pos hc, if_neg (by omega)]; rfl
  · rw [if_neg hc, if_pos (by omega)]; rfl

/-- What is stored for an unescaped character. -/
def caseOf (dc : Bool) (c : UInt8) : UInt8 := if dc then lower c else c

theorem stn_char {cap str dc fuel p slen ll len data oc} {c : UInt8} (hp : str[p]? = some c)
    (hs : slen ≠ 0) (h0 : c ≠ 0) (h1 : c.toNat ≠ 92) (h2 : c.toNat ≠ 46) :
    stnLoop cap str dc (fuel + 1) p slen ll len data oc =
      if 255 ≤ len then err .nameOverflow
      else if cap < data.length + 1 then ub
      else stnLoop cap str dc fuel (p + 1) (slen - 1) (ll + 1) (len + 1) (data ++ [caseOf dc c]) oc := by
  rw [stnLoop, rdS_lt hp]
  simp only [ok_bind, if_neg hs, maxlenName, wr]
  by_cases hlen : 255 ≤ len
  · simp only [ge_iff_le, hlen, if_true]
  simp only [ge_iff_le, hlen, if_false]
  have hcase : 65 ≤ c.toNat ∧ c.toNat ≤ 90 →
      (if dc = true then c ||| 32 else c) = caseOf dc c := by
    intro h
    unfold caseOf
    split
    · rw [or_0x20 c h, lower, if_pos (by omega)]
    · rfl
  have hnc : ¬ (65 ≤ c.toNat ∧ c.toNat ≤ 90) → c = caseOf dc c := by
    intro h; unfold caseOf lower; simp [h]
  by_cases hu : 65 ≤ c.toNat ∧ c.toNat ≤ 90
  · rw [if_pos hu, hcase hu]
    by_cases hc : data.length + 1 ≤ cap
    · rw [if_pos hc, if_neg (by omega)]; rfl
    · rw [if_neg hc, if_pos (by omega)]; rfl
  · rw [if_neg hu, if_neg h1, if_neg h2, if_pos h0, ← hnc hu]
    by_cases hc : data.length + 1 ≤ cap
    · rw [if_pos hc, if_neg (by omega)]; rfl
    · rw [if_neg hc, if_pos (by omega)]; rfl

theorem stn_dot {cap str dc fuel p slen ll len data oc} {c : UInt8} (hp : str[p]? = some c)
    (hs : slen ≠ 0) (h2 : c.toNat = 46) :
    stnLoop cap str dc (fuel + 1) p slen ll len data oc =
      if 255 ≤ len then err .nameOverflow
      else if ll = 0 then err .parseError
      else if cap < data.length + 1 then ub
      else if slen = 1 then ok ⟨len + 1, data.set oc (UInt8.ofNat ll) ++ [0]⟩
      else stnLoop cap str dc fuel (p + 1) (slen - 1) 0 (len + 1)
        (data.set oc (UInt8.ofNat ll) ++ [0]) data.length := by
  rw [stnLoop, rdS_lt hp]
  simp only [ok_bind, if_neg hs, maxlenName, wr, List.length_set, Nat.add_sub_cancel]
  by_cases hlen : 255 ≤ len
  · simp only [ge_iff_le, hlen, if_true]
  simp only [ge_iff_le, hlen, if_false]
  rw [if_neg (by omega), if_neg (by omega), if_pos h2]
  by_cases hl0 : ll = 0
  · simp only [hl0, if_true]
  simp only [hl0, if_false]
  by_cases hc : data.length + 1 ≤ cap
  · rw [if_pos hc, if_neg (show ¬ cap < data.length + 1 by omega), ok_bind]
    rw [List.set_append_right _ _ (by simp)]; simp
  · rw [if_neg hc, if_pos (by omega)]; rfl

theorem stn_esc {cap str dc fuel p slen ll len data oc} {c d : UInt8} (hp : str[p]? = some c)
    (hp1 : str[p + 1]? = some d)
    (hs : 0 < slen) (h1 : c.toNat = 92) (hd : isDigit d = false) :
    stnLoop cap str dc (fuel + 1) p slen ll len data oc =
      if 255 ≤ len then err .nameOverflow
      else if cap < data.length + 1 then ub
      else stnLoop cap str dc fuel (p + 2) (slen - 2) (ll + 1) (len + 1) (data ++ [d]) oc := by
  rw [stnLoop, rdS_lt hp]
  simp only [ok_bind, if_neg (show slen ≠ 0 by omega), maxlenName, wr]
  by_cases hlen : 255 ≤ len
  · simp only [ge_iff_le, hlen, if_true]
  simp only [ge_iff_le, hlen, if_false]
  rw [if_neg (by omega), if_pos h1, rdS_lt hp1]
  simp only [ok_bind, hd, Bool.not_false, if_true]
  rw [if_neg (by omega)]
  by_cases hc : data.length + 1 ≤ cap
  · rw [if_pos hc, if_neg (by omega), ok_bind, show slen - 1 - 1 = slen - 2 by omega]
  · rw [if_neg hc, if_pos (by omega)]; rfl

/-- Decimal value of three digit characters. -/
def val3 (d0 d1 d2 : UInt8) : Nat := (d0.toNat - 48) * 100 + (d1.toNat - 48) * 10 + (d2.toNat - 48)

theorem stn_ddd {cap str dc fuel p slen ll len data oc} {c d0 d1 d2 : UInt8}
    (hp : str[p]? = some c) (hs : 3 ≤ slen) (h1 : c.toNat = 92)
    (hp1 : str[p + 1]? = some d0) (hd : isDigit d0 = true)
    (hp2 : rdS str (p + 2) = ok d1) (hp3 : rdS str (p + 3) = ok d2) :
    stnLoop cap str dc (fuel + 1) p slen ll len data oc =
      if 255 ≤ len then err .nameOverflow
      else if isDigit d1 = false ∨ isDigit d2 = false then err .parseError
      else if 255 < val3 d0 d1 d2 then err .parseError
      else if cap < data.length + 1 then ub
      else stnLoop cap str dc fuel (p + 4) (slen - 4) (ll + 1) (len + 1)
        (data ++ [UInt8.ofNat (val3 d0 d1 d2)]) oc := by
  rw [stnLoop, rdS_lt hp]
  simp only [ok_bind, if_neg (show slen ≠ 0 by omega), maxlenName, wr]
  by_cases hlen : 255 ≤ len
  · simp only [ge_iff_le, hlen, if_true]
  simp only [ge_iff_le, hlen, if_false]
  rw [if_neg (by omega), if_pos h1, rdS_lt hp1]
  simp only [ok_bind, hd, Bool.not_true, if_false, Bool.false_eq_true]
  rw [if_pos (by omega), show p + 1 + 1 = p + 2 by omega, show p + 1 + 2 = p + 3 by omega, hp2, hp3]
  simp only [ok_bind]
  by_cases hdd : isDigit d1 = false ∨ isDigit d2 = false
  · rw [if_pos hdd, if_pos]
    rcases hdd with h | h <;> simp [h]
  · have h1 : isDigit d1 = true := by simpa using fun h => hdd (.inl h)
    have h2 : isDigit d2 = true := by simpa using fun h => hdd (.inr h)
    rw [if_neg hdd, if_neg (by simp [h1, h2])]
    change (if val3 d0 d1 d2 ≤ 255 then _ else _) = _
    by_cases hv : val3 d0 d1 d2 ≤ 255
    · rw [if_pos hv, if_neg (show ¬ 255 < val3 d0 d1 d2 by omega)]
      by_cases hc : data.length + 1 ≤ cap
      · rw [if_pos hc, if_neg (by omega), ok_bind, show slen - 3 - 1 = slen - 4 by omega,
          show p + 1 + 3 = p + 4 by omega]
        rfl
      · rw [if_neg hc, if_pos (by omega)]; rfl
    · rw [if_neg hv, if_pos (show 255 < val3 d0 d1 d2 by omega)]

/-- A digit escape with fewer than three characters left. -/
theorem stn_ddd_short {cap str dc fuel p slen ll len data oc} {c d0 : UInt8}
    (hp : str[p]? = some c) (hs : 0 < slen) (hs3 : slen < 3) (h1 : c.toNat = 92)
    (hp1 : str[p + 1]? = some d0) (hd : isDigit d0 = true) :
    stnLoop cap str dc (fuel + 1) p slen ll len data oc =
      if 255 ≤ len then err .nameOverflow else err .parseError := by
  rw [stnLoop, rdS_lt hp]
  simp only [ok_bind, if_neg (show slen ≠ 0 by omega), maxlenName, wr]
  by_cases hlen : 255 ≤ len
  · simp only [ge_iff_le, hlen, if_true]
  simp only [ge_iff_le, hlen, if_false]
  rw [if_neg (by omega), if_pos h1, rdS_lt hp1]
  simp only [ok_bind, hd, Bool.not_true, if_false, Bool.false_eq_true]
  rw [if_neg (by omega)]

/-- A backslash as the last character: the scanner runs past the terminating NUL. -/
theorem stn_dangling {cap str dc fuel p ll len data oc} {c : UInt8}
    (hp : str[p]? = some c) (h1 : c.toNat = 92) (hl : p + 1 = str.length) :
    stnLoop cap str dc (fuel + 2) p 1 ll len data oc =
      if 255 ≤ len then err .nameOverflow else ub := by
  have e : ∀ x, stnLoop cap str dc (fuel + 1) (p + 2) (-1) (ll + 1) (len + 1) x oc = ub := by
    intro x
    rw [stnLoop]
    simp [rdS, show ¬ p + 2 < str.length by omega, show p + 2 ≠ str.length by omega]
  rw [stnLoop, rdS_lt hp]
  simp only [ok_bind, maxlenName, wr]
  rw [if_neg (show (1 : Int) ≠ 0 by omega)]
  by_cases hlen : 255 ≤ len
  · simp only [ge_iff_le, hlen, if_true]
  simp only [ge_iff_le, hlen, if_false]
  rw [if_neg (by omega), if_pos h1]
  simp only [rdS, hl, Nat.lt_irrefl, if_false, if_true, ok_bind]
  have : isDigit 0 = false := by decide
  simp only [this, Bool.not_false, if_true]
  rw [if_neg (by omega)]
  by_cases hc : data.length + 1 ≤ cap
  · rw [if_pos hc, ok_bind]
    have := e (data ++ [0])
    rw [← hl]
    exact this
  · rw [if_neg hc]; rfl

/-! ### scanning printed names -/

theorem caseOf_nonupper {dc : Bool} {c : UInt8} (h : ¬ (65 ≤ c.toNat ∧ c.toNat ≤ 90)) :
    caseOf dc c = c := by unfold caseOf lower; simp [h]

theorem isDigit_ofNat {k : Nat} (h : k < 10) : isDigit (UInt8.ofNat (48 + k)) = true := by
  unfold isDigit
  simp
  omega

theorem stn_escByte {cap str dc fuel p ll len data oc} {c : UInt8}
    (hst : escByte c <+: str.drop p) (hl : len < 255) (hd : data.length < cap) :
    stnLoop cap str dc (fuel + 1) p ((str.length : Int) - p) ll len data oc =
      stnLoop cap str dc fuel (p + (escByte c).length)
        ((str.length : Int) - (p + (escByte c).length : Nat)) (ll + 1) (len + 1)
        (data ++ [caseOf dc c]) oc := by
  have hlen := prefix_drop_length hst
    (by have := escByte_length_pos c; intro h; simp [h] at this)
  have hpos := escByte_length_pos c
  unfold escByte at hst hlen ⊢
  split_ifs at hst hlen ⊢ with h1 h2
  · rw [prefix_drop_cons, prefix_drop_cons] at hst
    simp only [List.length_cons, List.length_nil] at hlen
    rw [stn_esc hst.1 hst.2.1 (by omega) (by decide) (by unfold isDigit; simp; omega),
      if_neg (by omega), if_neg (by omega), caseOf_nonupper (by omega)]
    simp only [List.length_cons, List.length_nil]
    congr 1
    omega
  · rw [prefix_drop_cons] at hst
    simp only [List.length_cons, List.length_nil] at hlen
    rw [stn_char hst.1 (by omega) (by rw [Ne, u8_eq_zero]; omega) (by omega) (by omega),
      if_neg (by omega), if_neg (by omega)]
    simp only [List.length_cons, List.length_nil]
    congr 1
    omega
  · rw [prefix_drop_cons, prefix_drop_cons, prefix_drop_cons, prefix_drop_cons] at hst
    simp only [List.length_cons, List.length_nil] at hlen
    have hc := u8_lt c
    obtain ⟨a0, a1, a2, a3, _⟩ := hst
    rw [stn_ddd a0 (by omega) (by decide) a1 (isDigit_ofNat (by omega)) (rdS_lt a2) (rdS_lt a3),
      if_neg (by omega), if_neg, if_neg, if_neg (by omega), caseOf_nonupper (by omega)]
    · have hv : UInt8.ofNat (val3 (UInt8.ofNat (48 + c.toNat / 100)) (UInt8.ofNat (48 + c.toNat / 10 % 10))
          (UInt8.ofNat (48 + c.toNat % 10))) = c := by
        have : val3 (UInt8.ofNat (48 + c.toNat / 100)) (UInt8.ofNat (48 + c.toNat / 10 % 10))
          (UInt8.ofNat (48 + c.toNat % 10)) = c.toNat := by
          unfold val3; simp; omega
        rw [this, u8_ofNat_toNat]
      rw [hv]
      simp only [List.length_cons, List.length_nil]
      congr 1
      omega
    · unfold val3; simp; omega
    · rw [isDigit_ofNat (by omega), isDigit_ofNat (by omega)]; simp

theorem stn_labelText {cap str dc} : ∀ (l : Label) p fuel ll len data oc,
    labelText l <+: str.drop p → len + l.length ≤ 255 → data.length + l.length ≤ cap →
    stnLoop cap str dc (fuel + l.length) p ((str.length : Int) - p) ll len data oc =
      stnLoop cap str dc fuel (p + (labelText l).length)
        ((str.length : Int) - (p + (labelText l).length : Nat)) (ll + l.length) (len + l.length)
        (data ++ l.map (caseOf dc)) oc := by
  intro l
  induction l with
  | nil => intro p fuel ll len data oc _ _ _; simp [labelText]
  | cons c l ih =>
    intro p fuel ll len data oc hst hl hd
    have hlt : labelText (c :: l) = escByte c ++ labelText l := by simp [labelText]
    rw [hlt, prefix_drop_append] at hst
    rw [hlt]
    simp only [List.length_cons] at hl hd ⊢
    rw [← Nat.add_assoc, stn_escByte hst.1 (by omega) (by omega),
      ih _ _ _ _ _ _ hst.2 (by omega) (by simp; omega)]
    simp only [List.map_cons, List.append_assoc, List.length_append, List.singleton_append]
    congr 1 <;> omega

/-- Case treatment of a whole name. -/
def caseName (dc : Bool) (n : Name) : Name := n.map (fun l => l.map (caseOf dc))

theorem caseName_false (n : Name) : caseName false n = n := by
  have : caseOf false = id := by funext c; rfl
  simp [caseName, this]

theorem caseName_true (n : Name) : caseName true n = lowerName n := by
  simp [caseName, caseOf, lowerName]

theorem set_append_cons {α} (pre suf : List α) (a b : α) :
    (pre ++ a :: suf).set pre.length b = pre ++ b :: suf := by
  rw [List.set_append_right _ _ (Nat.le_refl _)]; simp

theorem stn_dotText {cap str dc} : ∀ (n : Name) p fuel (pre : List UInt8),
    (∀ l ∈ n, LabelOK l) → n ≠ [] → dotText n <+: str.drop p → p + (dotText n).length = str.length →
    pre.length + (wire n).length ≤ 255 → 255 ≤ cap → (labs n).length ≤ fuel →
    stnLoop cap str dc fuel p ((str.length : Int) - p) 0 (pre.length + 1) (pre ++ [0]) pre.length =
      ok ⟨pre.length + (wire n).length, pre ++ wire (caseName dc n)⟩ := by
  intro n
  induction n with
  | nil => intro p fuel pre _ h; exact absurd rfl h
  | cons l n ih =>
    intro p fuel pre hok _ hst hp hw hcap hf
    rw [dotText_cons] at hst hp
    rw [prefix_drop_append, prefix_drop_cons] at hst
    simp only [List.length_append, List.length_cons] at hp
    rw [wire_cons_length] at hw
    have hwp := wire_length_pos n
    rw [labs_cons_length] at hf
    have hlk := hok l (by simp)
    obtain ⟨f, rfl⟩ : ∃ f, fuel = (f + 1) + l.length := ⟨fuel - 1 - l.length, by omega⟩
    rw [stn_labelText l _ _ _ _ _ _ hst.1 (by omega) (by simp; omega),
      stn_dot hst.2.1 (by omega) (by decide), if_neg (by omega), if_neg (by have := hlk.1; omega),
      if_neg (by simp; omega)]
    have hset : (pre ++ [0] ++ l.map (caseOf dc)).set pre.length (UInt8.ofNat (0 + l.length)) ++ [0] =
        (pre ++ UInt8.ofNat l.length :: l.map (caseOf dc)) ++ [0] := by
      rw [List.append_assoc, List.singleton_append, set_append_cons]; simp
    rw [hset]
    cases n with
    | nil =>
      rw [if_pos (by simp only [dotText, List.flatMap_nil, List.length_nil] at hp; omega)]
      simp [wire, caseName]; omega
    | cons l' n' =>
      rw [if_neg]
      · have := ih (p + (labelText l).length + 1) f (pre ++ UInt8.ofNat l.length :: l.map (caseOf dc))
          (fun l hm => hok l (by simp [hm])) (by simp) hst.2.2 (by omega) (by simp; omega) hcap (by omega)
        have e1 : (pre ++ UInt8.ofNat l.length :: l.map (caseOf dc)).length =
            (pre ++ [0] ++ l.map (caseOf dc)).length := by simp
        have e2 : (pre ++ UInt8.ofNat l.length :: l.map (caseOf dc)).length + 1 =
            pre.length + 1 + l.length + 1 := by simp; omega
        rw [e2, e1] at this
        rw [show ((str.length : Int) - (p + (labelText l).length : Nat) - 1) =
          (str.length : Int) - (p + (labelText l).length + 1 : Nat) by omega]
        rw [this]
        simp [wire, caseName]; omega
      · have : 1 ≤ (dotText (l' :: n')).length := by rw [dotText_cons]; simp; omega
        omega

theorem dotText_length_ge (n : Name) : (labs n).length ≤ (dotText n).length := by
  induction n with
  | nil => simp [labs]
  | cons l n ih =>
    have : l.length ≤ (labelText l).length := by
      clear ih
      induction l with
      | nil => simp
      | cons c l ih =>
        have := escByte_length_pos c
        simp only [labelText, List.flatMap_cons, List.length_append, List.length_cons] at ih ⊢; omega
    rw [dotText_cons, labs_cons_length]; simp only [List.length_append, List.length_cons]; omega

theorem strToNameGen_text (dc : Bool) (n : Name) (hn : WF n) :
    strToNameGen (nameText n) dc = ok ⟨(wire n).length, wire (caseName dc n)⟩ := by
  cases n with
  | nil => simp [nameText, strToNameGen, wire, caseName]
  | cons l n =>
    have hne : nameText (l :: n) = dotText (l :: n) := by simp [nameText, dotText]
    rw [hne]
    have hl := (hn.1 l (by simp)).1
    have hge := dotText_length_ge (l :: n)
    rw [labs_cons_length] at hge
    rw [strToNameGen, if_neg (by rw [not_or]; refine ⟨by omega, fun h => by omega⟩)]
    have := stn_dotText (cap := maxlenName) (dc := dc) (str := dotText (l :: n)) (l :: n) 0
      ((dotText (l :: n)).length + 2) [] hn.1 (by simp) (by simp) (by simp) (by simpa using hn.2)
      (by unfold maxlenName; omega) (by rw [labs_cons_length]; omega)
    simpa using this

end Wdns
