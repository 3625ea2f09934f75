import Verif.Lemmas.Copy

/-! Helper lemmas for skip, len, count, chop, subdomain, reverse, downcase. -/

namespace Wdns
open Outcome Spec

/-- The `wdns_name_t` `c` holds the well-formed name `n` (more bytes may follow in memory). -/
def Holds (c : CName) (n : Name) : Prop := WF n ∧ c.len = (wire n).length ∧ wire n <+: c.data

/-- `wire n` without the terminating zero octet. -/
def labs : Name → List UInt8
  | [] => []
  | l :: n => UInt8.ofNat l.length :: (l ++ labs n)

theorem wire_eq_labs (n : Name) : wire n = labs n ++ [0] := by
  induction n with
  | nil => rfl
  | cons l n ih => simp [wire, labs, ih]

theorem labs_append (m n : Name) : labs (m ++ n) = labs m ++ labs n := by
  induction m with
  | nil => rfl
  | cons l m ih => simp [labs, ih]

theorem wire_append (m n : Name) : wire (m ++ n) = labs m ++ wire n := by
  rw [wire_eq_labs, wire_eq_labs, labs_append, List.append_assoc]

theorem wire_length_labs (n : Name) : (wire n).length = (labs n).length + 1 := by
  simp [wire_eq_labs]

theorem labs_cons_length (l : Label) (n : Name) :
    (labs (l :: n)).length = l.length + 1 + (labs n).length := by simp [labs]; omega

/-! ### skip -/

theorem skip_step {mem eod fuel src} {c : UInt8} (hs : src ≤ eod) (h : mem[src]? = some c) :
    skipLoop mem eod (fuel + 1) src =
      if c = 0 then ok src else if c.toNat ≥ 192 then ok (src + 1)
      else skipLoop mem eod fuel (src + (c.toNat + 1)) := by
  simp [skipLoop, hs, rd, h]

theorem skip_past {mem eod fuel src} (hs : eod < src) :
    skipLoop mem eod (fuel + 1) src = ok src := by
  simp [skipLoop, show ¬ src ≤ eod by omega]

theorem skipLoop_spec {mem eod} : ∀ fuel src, 0 < fuel → eod + 1 < fuel + src →
    (∃ e, skipLoop mem eod fuel src = ok e ∧ src ≤ e) ∨
    (skipLoop mem eod fuel src = ub ∧ mem.length ≤ eod) := by
  intro fuel
  induction fuel with
  | zero =>
    intro src h
    omega
  | succ fuel ih =>
    intro src _ hf
    by_cases hs : src ≤ eod
    · cases hc : mem[src]? with
      | none => right; simp [skipLoop, hs, rd, hc]; simp at hc; omega
      | some c =>
        rw [skip_step hs hc]
        split_ifs
        · exact .inl ⟨_, rfl, Nat.le_refl _⟩
        · exact .inl ⟨_, rfl, by omega⟩
        · rcases ih (src + (c.toNat + 1)) (by omega) (by omega) with ⟨e, h1, h2⟩ | h
          · exact .inl ⟨e, h1, by omega⟩
          · exact .inr h
    · rw [skip_past (by omega)]; exact .inl ⟨_, rfl, Nat.le_refl _⟩

theorem skipLoop_encEnd {mem eod o e} (h : EncEnd (mem.take eod) o e) : ∀ fuel, eod < fuel + o →
    skipLoop mem eod fuel o = ok (e - 1) ∧ o < e := by
  have key : ∀ {i : Nat} {b : UInt8}, (mem.take eod)[i]? = some b → i < eod ∧ mem[i]? = some b := by
    intro i b h
    have := getElem?_some_lt h
    simp only [List.length_take] at this
    rw [getElem?_take_lt (by omega)] at h
    exact ⟨by omega, h⟩
  induction h with
  | root h =>
    intro fuel hf
    obtain ⟨h1, h2⟩ := key h
    obtain ⟨f, rfl⟩ : ∃ f, fuel = f + 1 := ⟨fuel - 1, by omega⟩
    rw [skip_step (by omega) h2]; simp
  | @ptr o hi h h192 =>
    intro fuel hf
    obtain ⟨h1, h2⟩ := key h
    obtain ⟨f, rfl⟩ : ∃ f, fuel = f + 1 := ⟨fuel - 1, by omega⟩
    rw [skip_step (by omega) h2, if_neg (by rw [u8_eq_zero]; omega), if_pos (by omega)]
    simp
  | @label o c e h h63 h64 _ ih =>
    intro fuel hf
    obtain ⟨h1, h2⟩ := key h
    obtain ⟨f, rfl⟩ : ∃ f, fuel = f + 1 := ⟨fuel - 1, by omega⟩
    rw [skip_step (by omega) h2, if_neg (by rw [u8_eq_zero]; omega), if_neg (by omega)]
    have := ih f (by omega)
    rw [show o + (c.toNat + 1) = o + 1 + c.toNat by omega]
    exact ⟨this.1, by omega⟩

theorem encEnd_of_denotes {msg base o n} (h : Denotes msg base o n) :
    ∃ e, EncEnd msg o e ∧ e ≤ msg.length := by
  induction h with
  | root h => exact ⟨_, .root h, getElem?_some_lt h⟩
  | label h1 h2 h3 _ _ ih => obtain ⟨e, he, hl⟩ := ih; exact ⟨e, .label h1 h2 h3 he, hl⟩
  | ptr h1 h2 h3 _ _ _ => exact ⟨_, .ptr h1 h2, by have := getElem?_some_lt h3; omega⟩

/-! ### len_uname -/

theorem len_step {mem fuel p len} {c : UInt8} (hl : 0 < len) (h : mem[p]? = some c) :
    lenLoop mem (fuel + 1) p len =
      if c.toNat > 63 ∨ c.toNat > len - 1 then err .invalidLengthOctet
      else if c = 0 then ok (len - 1)
      else lenLoop mem fuel (p + 1 + c.toNat) (len - 1 - c.toNat) := by
  simp [lenLoop, rd, h, show len ≠ 0 by omega]

/-- What the loop of `wdns_len_uname` finds. -/
theorem lenLoop_spec {mem} : ∀ fuel p len, len < fuel → p + len ≤ mem.length →
    (lenLoop mem fuel p len = err .invalidLengthOctet) ∨
    (∃ n, (∀ l ∈ n, LabelOK l) ∧ wire n <+: (mem.take (p + len)).drop p ∧
       lenLoop mem fuel p len = ok (len - (wire n).length) ∧ (wire n).length ≤ len) ∨
    (∃ n, (∀ l ∈ n, LabelOK l) ∧ labs n = (mem.take (p + len)).drop p ∧
       lenLoop mem fuel p len = ok (2 ^ 32 - 1)) := by
  intro fuel
  induction fuel with
  | zero => intro p len h; omega
  | succ fuel ih =>
    intro p len hf hm
    by_cases h0 : len = 0
    · subst h0
      right; right
      refine ⟨[], by simp, ?_, by simp [lenLoop]⟩
      simp [labs]
    · have hlt : p < mem.length := by omega
      obtain ⟨c, hc⟩ : ∃ c, mem[p]? = some c := ⟨mem[p], List.getElem?_eq_getElem hlt⟩
      rw [len_step (by omega) hc]
      have hc' : (mem.take (p + len))[p]? = some c := by
        rw [getElem?_take_lt (by omega)]; exact hc
      split_ifs with h1 h2
      · exact .inl rfl
      · subst h2
        right; left
        refine ⟨[], by simp, stored_nil.mpr hc', by simp [wire], by simp [wire]; omega⟩
      · have hc0 : c.toNat ≠ 0 := fun e => h2 (u8_eq_zero.mpr e)
        have he : p + 1 + c.toNat + (len - 1 - c.toNat) = p + len := by omega
        have hl := take_drop_length (mem.take (p + len)) (p + 1) c.toNat (by simp; omega)
        have hok : LabelOK (((mem.take (p + len)).drop (p + 1)).take c.toNat) := by
          constructor <;> rw [hl] <;> omega
        rcases ih (p + 1 + c.toNat) (len - 1 - c.toNat) (by omega) (by omega) with h | ⟨n, a, b, d, f⟩ | ⟨n, a, b, d⟩
        · exact .inl h
        · right; left
          rw [he] at b
          refine ⟨((mem.take (p + len)).drop (p + 1)).take c.toNat :: n, ?_, ?_, ?_, ?_⟩
          · intro l hm; rcases List.mem_cons.mp hm with rfl | hm
            · exact hok
            · exact a l hm
          · rw [stored_cons, hl, u8_ofNat_toNat]
            exact ⟨hc', List.take_prefix _ _, b⟩
          · rw [d, wire_cons_length, hl]; congr 1; omega
          · rw [wire_cons_length, hl]; omega
        · right; right
          rw [he] at b
          refine ⟨((mem.take (p + len)).drop (p + 1)).take c.toNat :: n, ?_, ?_, d⟩
          · intro l hm; rcases List.mem_cons.mp hm with rfl | hm
            · exact hok
            · exact a l hm
          · rw [labs, hl, u8_ofNat_toNat, b]
            have h3 := List.drop_eq_getElem_cons (l := mem.take (p + len)) (i := p) (by simp; omega)
            rw [h3]
            have h4 : (mem.take (p + len))[p]'(by simp; omega) = c := by
              rw [List.getElem?_eq_getElem (by simp; omega)] at hc'
              exact Option.some.inj hc'
            rw [h4]
            congr 1
            rw [← List.drop_drop (i := c.toNat)]
            exact List.take_append_drop _ _

theorem lenLoop_complete {mem} : ∀ n fuel p len, len < fuel → p + len ≤ mem.length →
    (∀ l ∈ n, LabelOK l) → wire n <+: (mem.take (p + len)).drop p →
    lenLoop mem fuel p len = ok (len - (wire n).length) ∧ (wire n).length ≤ len := by
  intro n
  induction n with
  | nil =>
    intro fuel p len hf hm _ hst
    rw [stored_nil] at hst
    have := getElem?_some_lt hst
    simp only [List.length_take] at this
    rw [getElem?_take_lt (by omega)] at hst
    obtain ⟨f, rfl⟩ : ∃ f, fuel = f + 1 := ⟨fuel - 1, by omega⟩
    rw [len_step (by omega) hst]
    simp [wire]; omega
  | cons l n ih =>
    intro fuel p len hf hm hok hst
    obtain ⟨h1, h2, h3⟩ := stored_cons.mp hst
    have hl := hok l (by simp)
    have e := ofNat_label_toNat hl
    have hwp := wire_length_pos n
    have hlen := prefix_drop_length h3 (wire_ne_nil n)
    simp only [List.length_take] at hlen
    rw [getElem?_take_lt (by omega)] at h1
    obtain ⟨f, rfl⟩ : ∃ f, fuel = f + 1 := ⟨fuel - 1, by omega⟩
    have h11 := hl.1
    have h12 := hl.2
    rw [len_step (by omega) h1, e, if_neg (by omega), if_neg (by rw [u8_eq_zero, e]; omega)]
    have := ih f (p + 1 + l.length) (len - 1 - l.length) (by omega) (by omega)
      (fun l hm => hok l (by simp [hm]))
      (by rw [show p + 1 + l.length + (len - 1 - l.length) = p + len by omega]; exact h3)
    rw [this.1, wire_cons_length]
    refine ⟨?_, by omega⟩
    congr 1; omega

/-! ### count_labels -/

theorem countLoop_spec (c : CName) : ∀ n pos k fuel, (∀ l ∈ n, LabelOK l) →
    wire n <+: c.data.drop pos → pos + (wire n).length ≤ c.len + 1 → (wire n).length ≤ fuel →
    countLoop c fuel pos k = ok (k + n.length) := by
  intro n
  induction n with
  | nil =>
    intro pos k fuel _ hst hl hf
    rw [stored_nil] at hst
    simp [wire] at hf
    obtain ⟨f, rfl⟩ : ∃ f, fuel = f + 1 := ⟨fuel - 1, by omega⟩
    simp [countLoop, rd, hst]
  | cons l n ih =>
    intro pos k fuel hok hst hl hf
    obtain ⟨h1, h2, h3⟩ := stored_cons.mp hst
    have hlk := hok l (by simp)
    have e := ofNat_label_toNat hlk
    rw [wire_cons_length] at hl hf
    obtain ⟨f, rfl⟩ : ∃ f, fuel = f + 1 := ⟨fuel - 1, by omega⟩
    have h11 := hlk.1
    have h12 := hlk.2
    have hwp := wire_length_pos n
    simp only [countLoop, rd, h1, ok_bind]
    rw [if_neg (by rw [u8_eq_zero, e]; omega), if_pos (by omega), e, if_neg (by omega),
      ih _ _ _ (fun l hm => hok l (by simp [hm])) h3 (by omega) (by omega)]
    simp; omega

/-! ### label offsets -/

/-- Offsets of the labels of a name that starts at `pos`. -/
def offs (pos : Nat) : Name → List Nat
  | [] => []
  | l :: n => pos :: offs (pos + 1 + l.length) n

theorem offs_length (pos : Nat) (n : Name) : (offs pos n).length = n.length := by
  induction n generalizing pos with
  | nil => rfl
  | cons l n ih => simp [offs, ih]

theorem offs_append (pos : Nat) (m n : Name) :
    offs pos (m ++ n) = offs pos m ++ offs (pos + (labs m).length) n := by
  induction m generalizing pos with
  | nil => simp [offs, labs]
  | cons l m ih => simp only [List.cons_append, offs, ih, labs_cons_length]; congr 3; omega

theorem offsetsLoop_spec (c : CName) (K : Nat) (hc : c.len ≤ 255) : ∀ n pos acc fuel,
    (∀ l ∈ n, LabelOK l) → n ≠ [] →
    wire n <+: c.data.drop pos → pos + (wire n).length ≤ c.len + 1 → acc.length + n.length = K →
    (wire n).length ≤ fuel →
    offsetsLoop c K fuel pos acc = ok (acc ++ offs pos n) := by
  intro n
  induction n with
  | nil => intro pos acc fuel _ h; exact absurd rfl h
  | cons l n ih =>
    intro pos acc fuel hok _ hst hl hK hf
    obtain ⟨h1, h2, h3⟩ := stored_cons.mp hst
    have hlk := hok l (by simp)
    have e := ofNat_label_toNat hlk
    rw [wire_cons_length] at hl hf
    obtain ⟨f, rfl⟩ : ∃ f, fuel = f + 1 := ⟨fuel - 1, by omega⟩
    have h11 := hlk.1
    have h12 := hlk.2
    have hwp := wire_length_pos n
    simp only [offsetsLoop, rd, h1, ok_bind]
    rw [if_neg (by rw [u8_eq_zero, e]; omega), if_pos (by omega), e,
      Nat.mod_eq_of_lt (show pos < 256 by omega)]
    cases n with
    | nil => rw [if_pos (by simpa using hK)]; simp [offs]
    | cons l' n' =>
      rw [if_neg (by simp at hK ⊢; omega), if_neg (by omega),
        show pos + l.length + 1 = pos + 1 + l.length by omega,
        ih _ _ _ (fun l hm => hok l (by simp [hm])) (by simp) h3 (by omega) (by simp at hK ⊢; omega)
          (by omega)]
      simp [offs]

theorem compareLabel_spec {d0 d1 : List UInt8} {o0 o1 : Nat} {l0 l1 : Label}
    (h0 : LabelOK l0) (h1 : LabelOK l1)
    (a0 : d0[o0]? = some (UInt8.ofNat l0.length)) (b0 : l0 <+: d0.drop (o0 + 1))
    (a1 : d1[o1]? = some (UInt8.ofNat l1.length)) (b1 : l1 <+: d1.drop (o1 + 1)) :
    compareLabel d0 o0 d1 o1 = ok (decide (l0 = l1)) := by
  have e0 := ofNat_label_toNat h0
  have e1 := ofNat_label_toNat h1
  have g0 := h0.1
  have g1 := h1.1
  have n0 : l0 ≠ [] := by intro h; simp [h] at g0
  have n1 : l1 ≠ [] := by intro h; simp [h] at g1
  have k0 := prefix_drop_length b0 n0
  have k1 := prefix_drop_length b1 n1
  simp only [compareLabel, rd, a0, a1, ok_bind, e0]
  split
  · rename_i h
    have hl : l0.length = l1.length := by rw [← e0, ← e1, h]
    simp only [rdN, k0, if_true, ok_bind, show o1 + 1 + l0.length ≤ d1.length by omega]
    rw [prefix_drop_iff.mp b0, hl, prefix_drop_iff.mp b1]
    by_cases h : l0 = l1 <;> simp [h]
  · rename_i h
    have : l0 ≠ l1 := by rintro rfl; exact h rfl
    simp [this]

/-- The right-to-left comparison decides the suffix relation. -/
theorem compareLoop_spec {d0 d1 : List UInt8} {p0 p1 : Nat} : ∀ (r1 r0 : Name),
    (∀ l ∈ r0, LabelOK l) → (∀ l ∈ r1, LabelOK l) →
    labs r0.reverse <+: d0.drop p0 → labs r1.reverse <+: d1.drop p1 →
    r1.length ≤ r0.length →
    compareLoop d0 d1 (offs p0 r0.reverse).reverse (offs p1 r1.reverse).reverse =
      ok (decide (r1 <+: r0)) := by
  intro r1
  induction r1 with
  | nil => intro r0 _ _ _ _ _; simp [offs, compareLoop]
  | cons l1 r1 ih =>
    intro r0 ok0 ok1 s0 s1 hle
    cases r0 with
    | nil => simp at hle
    | cons l0 r0 =>
      rw [List.reverse_cons, labs_append, prefix_drop_append] at s0 s1
      obtain ⟨s0a, s0b⟩ := s0
      obtain ⟨s1a, s1b⟩ := s1
      simp only [labs, List.append_nil] at s0b s1b
      rw [prefix_drop_cons] at s0b s1b
      rw [List.reverse_cons, List.reverse_cons, offs_append, offs_append, List.reverse_append,
        List.reverse_append]
      simp only [offs, List.reverse_cons, List.reverse_nil, List.nil_append, List.cons_append, compareLoop]
      rw [compareLabel_spec (ok0 l0 (by simp)) (ok1 l1 (by simp)) s0b.1 s0b.2 s1b.1 s1b.2]
      simp only [ok_bind]
      by_cases h : l0 = l1
      · subst h
        simp only [decide_true, if_true]
        rw [ih r0 (fun l hm => ok0 l (by simp [hm])) (fun l hm => ok1 l (by simp [hm])) s0a s1a
          (by simpa using hle)]
        simp [List.cons_prefix_cons]
      · have : ¬ (l1 :: r1 <+: l0 :: r0) := by
          rw [List.cons_prefix_cons]; exact fun h' => h h'.1.symm
        simp [h, this]

/-! ### reverse -/

theorem wire_reverse_length (n : Name) : (wire n.reverse).length = (wire n).length := by
  induction n with
  | nil => rfl
  | cons l n ih =>
    rw [List.reverse_cons, wire_length_labs, labs_append, List.length_append, ← Nat.add_right_comm,
      ← wire_length_labs, ih, wire_cons_length]
    simp [labs]; omega

theorem labs_reverse_length (n : Name) : (labs n.reverse).length = (labs n).length := by
  have h1 := wire_reverse_length n
  rw [wire_length_labs, wire_length_labs] at h1; omega

/-- Loop invariant: the last bytes of the buffer hold the labels seen so far, reversed. -/
theorem reverseLoop_spec {src : List UInt8} {L : Nat} : ∀ n p (done : Name) fuel,
    (∀ l ∈ n, LabelOK l) → wire n <+: src.drop p →
    (labs done).length + (wire n).length ≤ L → n.length < fuel →
    reverseLoop src L fuel p ((L : Int) - 1 - (labs done).length) (labs done).length
      (List.replicate (L - 1 - (labs done).length) 0 ++ wire done) =
    ok (List.replicate (L - 1 - (labs done).length - (labs n).length) 0 ++ wire (n.reverse ++ done)) := by
  intro n
  induction n with
  | nil =>
    intro p done fuel _ hst hL hf
    rw [stored_nil] at hst
    obtain ⟨f, rfl⟩ : ∃ f, fuel = f + 1 := ⟨fuel - 1, by omega⟩
    simp [reverseLoop, rd, hst, labs]
  | cons l n ih =>
    intro p done fuel hok hst hL hf
    obtain ⟨h1, h2, h3⟩ := stored_cons.mp hst
    have hlk := hok l (by simp)
    have e := ofNat_label_toNat hlk
    have hwp := wire_length_pos n
    rw [wire_cons_length] at hL
    have hwn := wire_length_labs n
    have hwd := wire_length_labs done
    simp only [List.length_cons] at hf
    obtain ⟨f, rfl⟩ : ∃ f, fuel = f + 1 := ⟨fuel - 1, by omega⟩
    have h11 := hlk.1
    have h12 := hlk.2
    have n0 : l ≠ [] := by intro h; simp [h] at h11
    have hpl := prefix_drop_length h2 n0
    have hbs : (src.drop p).take (l.length + 1) = UInt8.ofNat l.length :: l := by
      have := prefix_drop_cons.mpr ⟨h1, h2⟩
      have := prefix_drop_iff.mp this
      simpa using this
    simp only [reverseLoop, rd, h1, ok_bind, e]
    rw [if_neg (by rw [u8_eq_zero, e]; omega), if_neg (by omega)]
    simp only [rdN, show p + (l.length + 1) ≤ src.length by omega, if_true, ok_bind, hbs]
    have hpos : ((L : Int) - 1 - ((labs done).length : Nat) - ((l.length + 1 : Nat) : Int)) =
        ((L - 1 - (labs done).length - (l.length + 1) : Nat) : Int) := by omega
    have hpos2 : ((L : Int) - 1 - ((labs (l :: done)).length : Nat)) =
        ((L - 1 - (labs done).length - (l.length + 1) : Nat) : Int) := by
      rw [labs_cons_length]; omega
    rw [hpos]
    simp only [Int.toNat_natCast]
    rw [if_pos]
    rotate_left
    · refine ⟨by omega, ?_⟩
      simp only [List.length_append, List.length_replicate]; omega
    have hlc := labs_cons_length l done
    have := ih (p + (l.length + 1)) (l :: done) f (fun l hm => hok l (by simp [hm]))
      (by rw [show p + (l.length + 1) = p + 1 + l.length by omega]; exact h3) (by omega) (by omega)
    rw [hpos2] at this
    rw [show (labs done).length + (l.length + 1) = (labs (l :: done)).length by omega]
    have hbuf : (List.replicate (L - 1 - (labs done).length) (0 : UInt8) ++ wire done).take
          (L - 1 - (labs done).length - (l.length + 1)) ++ (UInt8.ofNat l.length :: l) ++
        (List.replicate (L - 1 - (labs done).length) (0 : UInt8) ++ wire done).drop
          (L - 1 - (labs done).length - (l.length + 1) + (l.length + 1)) =
        List.replicate (L - 1 - (labs (l :: done)).length) 0 ++ wire (l :: done) := by
      rw [show L - 1 - (labs done).length - (l.length + 1) + (l.length + 1) =
        (List.replicate (L - 1 - (labs done).length) (0 : UInt8)).length by simp; omega]
      rw [List.drop_left, List.take_append_of_le_length (by simp), List.take_replicate,
        Nat.min_eq_left (by omega)]
      rw [show L - 1 - (labs done).length - (l.length + 1) = L - 1 - (labs (l :: done)).length by omega]
      simp [wire]
    rw [hbuf, this]
    congr 1
    rw [labs_cons_length, labs_cons_length]
    congr 2
    · omega
    · simp

/-! ### downcase -/

theorem or_0x20 (b : UInt8) (h : b.toNat ≥ 65 ∧ b.toNat ≤ 90) :
    b ||| 0x20 = UInt8.ofNat (b.toNat + 32) := by
  have : ∀ n : Nat, n < 256 → (n ≥ 65 ∧ n ≤ 90) → UInt8.ofNat n ||| 0x20 = UInt8.ofNat (n + 32) := by
    decide +kernel
  have h2 := this b.toNat (u8_lt b) h
  rw [u8_ofNat_toNat] at h2; exact h2

theorem downcase_byte (b : UInt8) :
    (if b.toNat ≥ 65 ∧ b.toNat ≤ 90 then b ||| 0x20 else b) = lower b := by
  unfold lower
  split
  · rename_i h; rw [or_0x20 b h]
  · rfl

theorem downcaseBytes_spec : ∀ len (data : List UInt8), len ≤ data.length →
    downcaseBytes len data = ok ((data.take len).map lower ++ data.drop len) := by
  intro len
  induction len with
  | zero => intro data _; simp [downcaseBytes]
  | succ len ih =>
    intro data h
    cases data with
    | nil => simp at h
    | cons b data =>
      simp only [downcaseBytes]
      rw [ih data (by simpa using h), downcase_byte]
      simp

theorem lower_small {b : UInt8} (h : b.toNat < 65) : lower b = b := by
  unfold lower; rw [if_neg (by omega)]

theorem lower_lower (b : UInt8) : lower (lower b) = lower b := by
  unfold lower
  split
  · have := u8_lt b
    rw [if_neg]; simp; omega
  · rfl

theorem wire_lower (n : Name) (h : ∀ l ∈ n, LabelOK l) :
    (wire n).map lower = wire (lowerName n) := by
  induction n with
  | nil => simp [wire, lowerName]; decide
  | cons l n ih =>
    have e := ofNat_label_toNat (h l (by simp))
    have := (h l (by simp)).2
    simp only [wire, List.map_cons, List.map_append, lowerName] at ih ⊢
    rw [ih (fun l hm => h l (by simp [hm])), lower_small (by rw [e]; omega)]
    simp

theorem lowerName_ok {n : Name} (h : ∀ l ∈ n, LabelOK l) : ∀ l ∈ lowerName n, LabelOK l := by
  intro l hl
  simp only [lowerName, List.mem_map] at hl
  obtain ⟨l', hm, rfl⟩ := hl
  have := h l' hm
  exact ⟨by simpa using this.1, by simpa using this.2⟩

theorem wire_inj : ∀ {m n : Name}, (∀ l ∈ m, LabelOK l) → (∀ l ∈ n, LabelOK l) →
    wire m = wire n → m = n := by
  intro m
  induction m with
  | nil =>
    intro n _ hn h
    cases n with
    | nil => rfl
    | cons l n =>
      simp only [wire, List.cons.injEq] at h
      have e := ofNat_label_toNat (hn l (by simp))
      have := (hn l (by simp)).1
      rw [← h.1] at e; simp at e; omega
  | cons l m ih =>
    intro n hm hn h
    cases n with
    | nil =>
      simp only [wire, List.cons.injEq] at h
      have e := ofNat_label_toNat (hm l (by simp))
      have := (hm l (by simp)).1
      rw [h.1] at e; simp at e; omega
    | cons l' n =>
      simp only [wire, List.cons.injEq] at h
      have e := ofNat_label_toNat (hm l (by simp))
      have e' := ofNat_label_toNat (hn l' (by simp))
      have hl : l.length = l'.length := by rw [← e, ← e', h.1]
      obtain ⟨h1, h2⟩ := List.append_inj h.2 hl
      rw [h1, ih (fun l hm' => hm l (by simp [hm'])) (fun l hm' => hn l (by simp [hm'])) h2]

end Wdns
