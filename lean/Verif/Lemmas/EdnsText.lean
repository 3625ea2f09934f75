import Verif.Spec.EdnsText
import Verif.Lemmas.TextPrintable
import Verif.Lemmas.TextEnd

/-! # Lemmas: rendering EDNS options -/

namespace Wdns
open Outcome Spec

theorem printable_dots (s : List UInt8) : Printable (dots s) := by
  intro b hb
  simp only [dots, List.mem_map] at hb
  obtain ⟨c, _, rfl⟩ := hb
  split
  · assumption
  · decide

theorem printPrintable_eq (s : List UInt8) : ∀ u, Clean u → printPrintable s u = u ++ dots s := by
  induction s with
  | nil => intro u _; simp [printPrintable, dots]
  | cons c s ih =>
    intro u hu
    have hp : Printable [if 32 ≤ c.toNat ∧ c.toNat ≤ 126 then c else 46] := by
      have := printable_dots [c]
      simpa [dots] using this
    unfold printPrintable
    rw [uAddCstr_clean hu, ih _ (hu.append hp)]
    simp [dots]

theorem edePurpose_eq : edePurpose = edeNames.map ascii := by decide +kernel

theorem ednsCode_eq {u : List UInt8} (hu : Clean u) (code : Nat) : ednsCode u code = u ++ optLabel code := by
  unfold ednsCode optLabel
  by_cases h1 : code = 8
  · simp only [h1, if_true]
  · by_cases h2 : code = 15
    · simp only [h2, if_true, if_neg (show ¬ (15 : Nat) = 8 by decide)]
    · simp only [h1, h2, if_false]
      rw [uAddCstr_clean hu, fmtU_eq]
      rfl

theorem printable_optLabel (code : Nat) : Printable (optLabel code) := by
  unfold optLabel
  split
  · decide
  · split
    · decide
    · exact (Printable.append (by decide) (printable_decText _)).append (by decide)

theorem quadText_pad {bs : List UInt8} (h : bs.length ≤ 4) :
    quadText ((bs ++ List.replicate (16 - bs.length) 0).take 4) = quadText (padTo 4 bs) := by
  unfold padTo
  rw [List.take_append, List.take_of_length_le h, List.take_replicate]
  congr 3
  omega

theorem ip6Text_pad {bs : List UInt8} (h : bs.length ≤ 16) :
    (bs ++ List.replicate (16 - bs.length) 0).take 16 = padTo 16 bs := by
  unfold padTo
  rw [List.take_of_length_le]
  simp; omega

theorem ipToUbuf_eq {u : List UInt8} (hu : Clean u) (fam : Nat) (bs : List UInt8) :
    ipToUbuf u fam bs = ok (if fam = 1 ∧ bs.length ≤ 4 then (u ++ quadText (padTo 4 bs), .success)
      else if fam = 2 ∧ bs.length ≤ 16 then (u ++ ip6Text (padTo 16 bs), .success) else (u, .parseError)) := by
  unfold ipToUbuf
  by_cases h1 : fam = 1
  · subst h1
    by_cases h : bs.length ≤ 4
    · rw [if_neg (by omega), if_neg (by omega), if_neg (by omega), if_pos ⟨rfl, h⟩]
      rw [wrN_ok (by simp; omega)]
      simp only [ok_bind, List.nil_append, if_true]
      rw [inet4Ntop_quad (by simp; omega) (by omega)]
      simp only [ok_bind]
      rw [uAddCstr_clean hu, quadText_pad h]
    · rw [if_neg (by omega), if_pos (by omega), if_neg (by omega), if_neg (by omega)]
  · by_cases h2 : fam = 2
    · subst h2
      by_cases h : bs.length ≤ 16
      · rw [if_neg (by omega), if_neg (by omega), if_neg (by omega), if_neg (by omega), if_pos ⟨rfl, h⟩]
        rw [wrN_ok (by simp; omega)]
        simp only [ok_bind, List.nil_append, if_neg (show ¬ (2 : Nat) = 1 by decide)]
        rw [inet6Ntop_ip6 (by simp; omega) (by omega)]
        simp only [ok_bind]
        rw [uAddCstr_clean hu, ip6Text_pad h]
      · rw [if_neg (by omega), if_neg (by omega), if_pos (by omega), if_neg (by omega), if_neg (by omega)]
    · rw [if_pos (by omega), if_neg (by omega), if_neg (by omega)]

theorem printable_optText {code data t} (h : optText code data = some t) : Printable t ∧ t.getLast? ≠ some 32 := by
  unfold optText at h
  split at h
  · unfold subnetText at h
    split at h
    · have hd : ∀ n, (decText n).getLast? ≠ some 32 := by
        intro n hl
        have := plain_decText n 32 (List.mem_of_getLast? hl)
        exact absurd this.1 (by decide)
      have hq : ∀ (x : List UInt8) n m, Printable x →
          Printable (x ++ (ascii "/" ++ decText n ++ ascii "/" ++ decText m)) ∧
          (x ++ (ascii "/" ++ decText n ++ ascii "/" ++ decText m)).getLast? ≠ some 32 := by
        intro x n m hx
        refine ⟨hx.append (((Printable.append (by decide) (printable_decText _)).append (by decide)).append
          (printable_decText _)), ?_⟩
        rw [← List.append_assoc, List.getLast?_append]
        cases h : (decText m).getLast? with
        | none =>
          rw [← List.append_assoc, List.getLast?_append]
          rw [show (ascii "/").getLast? = some 47 from by decide]
          simp
        | some c => have := hd m; rw [h] at this; simpa using this
      split at h
      · cases h; exact hq _ _ _ (printable_quadText _)
      · split at h
        · cases h; exact hq _ _ _ (printable_ip6Text _)
        · cases h
    · cases h
  · split at h
    · unfold edeText at h
      split at h
      · cases h
        refine ⟨?_, ?_⟩
        · refine ((((printable_decText _).append ?_).append (by decide)).append (printable_dots _)).append (by decide)
          have hall : ∀ s ∈ edeNames, Printable (ascii s) := by decide +kernel
          cases he : edeNames[be16 _ _]? with
          | none => exact printable_nil
          | some s =>
            simp only [Option.elim]
            exact (Printable.append (by decide) (hall s (List.mem_of_getElem? he))).append (by decide)
        · rw [List.getLast?_append, show (ascii ")").getLast? = some 41 from by decide]; simp
      · cases h
    · cases h
      refine ⟨?_, ?_⟩
      · unfold otherOptText
        refine ((Printable.append ?_ (by decide)).append (printable_dots _)).append (by decide)
        exact Printable.flatMap fun b _ => (printable_hexText _ _).append (by decide)
      · unfold otherOptText; rw [List.getLast?_append, show (ascii "\")").getLast? = some 41 from by decide]; simp

theorem ednsData_eq {u : List UInt8} (hu : Clean u) (code : Nat) (bs : List UInt8) :
    ednsData u code bs = ok ((optText code bs).elim (u ++ [32], .parseError) fun t => (u ++ [32] ++ t, .success)) := by
  have hu1 : Clean (u ++ [32]) := hu.append (by decide)
  unfold ednsData optText
  by_cases h8 : code = 8
  · simp only [h8, if_true]
    unfold subnetText
    match bs with
    | f0 :: f1 :: source :: scope :: addr =>
      simp only
      rw [ipToUbuf_eq hu1]
      by_cases h1 : be16 f0 f1 = 1 ∧ addr.length ≤ 4
      · simp only [if_pos h1, ok_bind]
        have : Clean (u ++ [32] ++ quadText (padTo 4 addr)) := hu1.append (printable_quadText _)
        simp only [ne_eq, not_true_eq_false, if_false, fmtU_eq, uAddCstr_clean this]
        simp [ascii]
      · by_cases h2 : be16 f0 f1 = 2 ∧ addr.length ≤ 16
        · simp only [if_neg h1, if_pos h2, ok_bind]
          have : Clean (u ++ [32] ++ ip6Text (padTo 16 addr)) := hu1.append (printable_ip6Text _)
          simp only [ne_eq, not_true_eq_false, if_false, fmtU_eq, uAddCstr_clean this]
          simp [ascii]
        · simp only [if_neg h1, if_neg h2, ok_bind]
          simp
    | [] => rfl
    | [_] => rfl
    | [_, _] => rfl
    | [_, _, _] => rfl
  · by_cases h15 : code = 15
    · simp only [h15, if_true, if_neg (show ¬ (15 : Nat) = 8 by decide)]
      unfold edeText
      match bs with
      | i0 :: i1 :: rest =>
        simp only
        rw [decStr_eq (by omega) (by have := be16_lt i0 i1; omega)]
        simp only [ok_bind, edePurpose_eq, List.getElem?_map]
        have hu2 : Clean (u ++ [32] ++ decText (be16 i0 i1)) := hu1.append (printable_decText _)
        have hall : ∀ s ∈ edeNames, Printable (ascii s) := by decide +kernel
        cases he : edeNames[be16 i0 i1]? with
        | none =>
          simp only [Option.map_none, Option.elim]
          rw [printPrintable_eq _ _ (hu2.append (by decide))]
          simp [ascii]
        | some s =>
          simp only [Option.map_some, Option.elim]
          rw [uAddCstr_clean hu2]
          rw [printPrintable_eq]
          · simp [ascii]
          · refine (hu2.append ?_).append (by decide)
            exact (Printable.append (by decide) (hall s (List.mem_of_getElem? he))).append (by decide)
      | [] => rfl
      | [_] => rfl
    · simp only [h8, h15, if_false]
      rw [hexRun_eq _ (by omega)]
      simp only [ok_bind, Option.elim, otherOptText]
      rw [printPrintable_eq]
      · simp [ascii]
      · refine (hu1.append ?_).append (by decide)
        exact Printable.flatMap fun b _ => (printable_hexText _ _).append (by decide)

/-- How the loop over the options ends: all options rendered, or at a malformed one. -/
def EdnsEnd (u s : List UInt8) (r : TRes) : Prop :=
  (∃ src, r = .go ⟨src, 0, u ++ s⟩ ∧ s.getLast? ≠ some 32) ∨
  (∃ u', Clean u' ∧ r = .bad none u' ∧ u' ++ ascii " ### PARSE ERROR ###" = u ++ s) ∨
  (∃ u', Clean u' ∧ r = .bad (some .parseError) u' ∧ u' ++ ascii " ### PARSE ERROR #12 ###" = u ++ s)

theorem EdnsEnd.app {u a s : List UInt8} {r : TRes} (h : EdnsEnd (u ++ a) s r) (hs : s ≠ []) : EdnsEnd u (a ++ s) r := by
  rcases h with ⟨src, h1, h2⟩ | ⟨u', h0, h1, h2⟩ | ⟨u', h0, h1, h2⟩
  · refine Or.inl ⟨src, by rw [h1, List.append_assoc], ?_⟩
    rw [List.getLast?_append]
    cases hl : s.getLast? with
    | none => exact absurd (List.getLast?_eq_none_iff.mp hl) hs
    | some c => rw [hl] at h2; simpa using h2
  · exact Or.inr (Or.inl ⟨u', h0, h1, by rw [h2, List.append_assoc]⟩)
  · exact Or.inr (Or.inr ⟨u', h0, h1, by rw [h2, List.append_assoc]⟩)

theorem two_of {w : List UInt8} (h : 2 ≤ w.length) : ∃ a b rest, w = a :: b :: rest := by
  match w, h with
  | a :: b :: rest, _ => exact ⟨a, b, rest, rfl⟩

theorem optsText_ne {w s} (h : OptsText w s) : s ≠ [] := by
  cases h <;> simp [ascii]

theorem tEdns_eq {mem : List UInt8} : ∀ (fuel : Nat) (w : List UInt8) (src : Nat) (u : List UInt8), Win mem src w →
    w.length < fuel → Clean u → w ≠ [] →
    ∃ s r, OptsText w s ∧ tEdns mem fuel ⟨src, w.length, u⟩ = ok r ∧ EdnsEnd u s r := by
  intro fuel
  induction fuel with
  | zero => intro w src u _ h; omega
  | succ fuel ih =>
    intro w src u hw hf hu hne
    have hpos : 0 < w.length := List.length_pos_iff.mpr hne
    unfold tEdns
    rw [if_pos (by simp only; omega)]
    unfold need
    by_cases h2 : w.length < 2
    · rw [if_pos (by simp only; omega)]
      obtain ⟨b, rfl⟩ : ∃ b, w = [b] := by
        match w, hpos, h2 with
        | [b], _, _ => exact ⟨b, rfl⟩
      exact ⟨_, _, .one, rfl, Or.inr (Or.inl ⟨u, hu, rfl, rfl⟩)⟩
    rw [if_neg (by simp only; omega)]
    obtain ⟨c0, c1, w1, rfl⟩ := two_of (show 2 ≤ w.length by omega)
    have hw1 := hw.tail.tail
    have hcode := be16_lt c0 c1
    have hu1 : Clean (u ++ optLabel (be16 c0 c1)) := hu.append (printable_optLabel _)
    simp only [hw.rd, hw.tail.rd, ok_bind, ednsCode_eq hu]
    by_cases h3 : w1.length < 2
    · rw [if_pos (by simp only [List.length_cons]; omega)]
      refine ⟨_, _, ?_, rfl, Or.inr (Or.inl ⟨_, hu1, rfl, List.append_assoc _ _ _⟩)⟩
      have := OptsText.short (rest := w1) hcode h3
      rw [net16_be16] at this
      exact this
    rw [if_neg (by simp only [List.length_cons]; omega)]
    obtain ⟨l0, l1, w2, rfl⟩ := two_of (show 2 ≤ w1.length by omega)
    have hw2 := hw1.tail.tail
    have hlen := be16_lt l0 l1
    rw [show src + 2 = src + 1 + 1 from rfl]
    simp only [hw1.rd, hw1.tail.rd, ok_bind]
    by_cases h4 : w2.length < be16 l0 l1
    · rw [if_pos (by simp only [List.length_cons]; omega)]
      refine ⟨_, _, ?_, rfl, Or.inr (Or.inl ⟨_, hu1, rfl, List.append_assoc _ _ _⟩)⟩
      have := OptsText.cut (rest := w2) hcode hlen h4
      rw [net16_be16, net16_be16] at this
      exact this
    rw [if_neg (by simp only [List.length_cons]; omega)]
    obtain ⟨data, rest, rfl, hdl⟩ : ∃ data rest, w2 = data ++ rest ∧ data.length = be16 l0 l1 :=
      ⟨w2.take (be16 l0 l1), w2.drop (be16 l0 l1), (List.take_append_drop _ _).symm, by simp; omega⟩
    rw [show src + 1 + 1 + 2 = src + 1 + 1 + 1 + 1 from rfl]
    simp only [hw2.left.rdN hdl.symm, ok_bind]
    rw [ednsData_eq hu1]
    have henc : c0 :: c1 :: l0 :: l1 :: (data ++ rest) =
        net16 (be16 c0 c1) ++ net16 data.length ++ data ++ rest := by
      rw [hdl, net16_be16, net16_be16]; simp
    cases ho : optText (be16 c0 c1) data with
    | none =>
      simp only [Option.elim, ok_bind, ne_eq, reduceCtorEq, not_false_eq_true, if_true]
      refine ⟨optLabel (be16 c0 c1) ++ ascii "  ### PARSE ERROR #12 ###", _, ?_, rfl,
        Or.inr (Or.inr ⟨_, hu1.append (by decide), rfl, ?_⟩)⟩
      · rw [henc]
        exact .bad hcode (by omega) ho
      · rw [List.append_assoc, List.append_assoc]; rfl
    | some t =>
      obtain ⟨hpt, hlt⟩ := printable_optText ho
      have hu2 : Clean (u ++ optLabel (be16 c0 c1) ++ [32] ++ t) := (hu1.append (by decide)).append hpt
      simp only [Option.elim, ok_bind, ne_eq, not_true_eq_false, if_false]
      have hbytes : ((c0 :: c1 :: l0 :: l1 :: (data ++ rest)).length : Int) - 2 - 2 - (be16 l0 l1 : Nat) = rest.length := by
        simp only [List.length_cons, List.length_append]; omega
      rw [hbytes]
      by_cases hr : rest = []
      · subst hr
        rw [if_neg (by simp)]
        refine ⟨optLabel (be16 c0 c1) ++ [32] ++ t, _, ?_, ?_, Or.inl ⟨src + 1 + 1 + 1 + 1 + be16 l0 l1, rfl, ?_⟩⟩
        · rw [henc, List.append_nil]
          exact .last hcode (by omega) ho
        · obtain ⟨f, rfl⟩ : ∃ f, fuel = f + 1 := ⟨fuel - 1, by simp at hf; omega⟩
          unfold tEdns
          rw [if_neg (by simp)]
          simp only [List.append_assoc]
          rfl
        · rw [List.getLast?_append]
          cases hl : t.getLast? with
          | none =>
            exfalso
            have ht := List.getLast?_eq_none_iff.mp hl
            subst ht
            unfold optText at ho
            split at ho
            · unfold subnetText at ho
              split at ho
              · split at ho
                · simp [ascii] at ho
                · split at ho
                  · simp [ascii] at ho
                  · simp at ho
              · simp at ho
            · split at ho
              · unfold edeText at ho
                split at ho
                · simp [ascii] at ho
                · simp at ho
              · simp [otherOptText, ascii] at ho
          | some c => rw [hl] at hlt; simpa using hlt
      · have hrl : 0 < rest.length := List.length_pos_iff.mpr hr
        rw [if_pos (by omega)]
        rw [← hdl]
        obtain ⟨s, r, h1, h2, h3⟩ := ih rest _ (u ++ optLabel (be16 c0 c1) ++ [32] ++ t ++ [10]) hw2.right
          (by simp only [List.length_cons, List.length_append] at hf; omega) (by unfold Clean; rw [List.getLast?_append]; simp) hr
        refine ⟨optLabel (be16 c0 c1) ++ [32] ++ t ++ [10] ++ s, r, ?_, h2, ?_⟩
        · rw [henc]
          exact .more hcode (by omega) ho hr h1
        · refine EdnsEnd.app ?_ (optsText_ne h1)
          simpa [List.append_assoc] using h3

theorem net16_inj {n m : Nat} {x y : List UInt8} (hn : n < 65536) (hm : m < 65536) (h : net16 n ++ x = net16 m ++ y) :
    n = m ∧ x = y := by
  simp only [net16, List.cons_append, List.nil_append, List.cons.injEq] at h
  obtain ⟨h1, h2, h3⟩ := h
  refine ⟨?_, h3⟩
  rw [← be16_net16 hn, ← be16_net16 hm, h1, h2]

theorem net16_length (n : Nat) : (net16 n).length = 2 := rfl

/-- The text of an option list is determined by its octets. -/
theorem optsText_unique {w s : List UInt8} (h : OptsText w s) : ∀ s', OptsText w s' → s = s' := by
  have inj : ∀ {c c' n n' : Nat} {x x' : List UInt8}, c < 65536 → c' < 65536 → n < 65536 → n' < 65536 →
      net16 c ++ (net16 n ++ x) = net16 c' ++ (net16 n' ++ x') → c = c' ∧ n = n' ∧ x = x' := by
    intro c c' n n' x x' h1 h2 h3 h4 h
    obtain ⟨a, b⟩ := net16_inj h1 h2 h
    obtain ⟨c, d⟩ := net16_inj h3 h4 b
    exact ⟨a, c, d⟩
  have pre : ∀ {d d' x x' : List UInt8}, d.length = d'.length → d ++ x = d' ++ x' → d = d' ∧ x = x' :=
    fun h1 h2 => List.append_inj h2 h1
  induction h with
  | @last code data t hc hl ho =>
    intro s' h'
    generalize hw : net16 code ++ net16 data.length ++ data = w at h'
    rw [List.append_assoc] at hw
    cases h' with
    | last hc' hl' ho' =>
      rw [List.append_assoc] at hw
      obtain ⟨rfl, h2, rfl⟩ := inj hc hc' hl hl' hw
      rw [ho] at ho'; cases ho'; rfl
    | more hc' hl' ho' hr _ =>
      rw [List.append_assoc, List.append_assoc] at hw
      obtain ⟨rfl, h2, h3⟩ := inj hc hc' hl hl' hw
      have := (pre (x := []) h2 (by simpa using h3)).2
      exact absurd this.symm hr
    | one => have := congrArg List.length hw; simp [net16_length] at this; try omega
    | short hc' hr =>
      have := (net16_inj hc hc' hw).2
      have := congrArg List.length this
      simp [net16_length] at this
      omega
    | cut hc' hl' hr =>
      rw [List.append_assoc] at hw
      obtain ⟨rfl, h2, rfl⟩ := inj hc hc' hl hl' hw
      omega
    | bad hc' hl' ho' =>
      rw [List.append_assoc, List.append_assoc] at hw
      obtain ⟨rfl, h2, h3⟩ := inj hc hc' hl hl' hw
      have := (pre (x := []) h2 (by simpa using h3)).1
      subst this
      rw [ho] at ho'; cases ho'
  | @more code data t rest s hc hl ho hr h1 ih =>
    intro s' h'
    generalize hw : net16 code ++ net16 data.length ++ data ++ rest = w at h'
    rw [List.append_assoc, List.append_assoc] at hw
    cases h' with
    | last hc' hl' ho' =>
      rw [List.append_assoc] at hw
      obtain ⟨rfl, h2, h3⟩ := inj hc hc' hl hl' hw
      have := (pre (x' := []) h2 (by simpa using h3)).2
      exact absurd this hr
    | more hc' hl' ho' hr' h1' =>
      rw [List.append_assoc, List.append_assoc] at hw
      obtain ⟨rfl, h2, h3⟩ := inj hc hc' hl hl' hw
      obtain ⟨rfl, rfl⟩ := pre h2 h3
      rw [ho] at ho'; cases ho'
      rw [ih _ h1']
    | one => have := congrArg List.length hw; simp [net16_length] at this; try omega
    | short hc' hr =>
      have := (net16_inj hc hc' hw).2
      have := congrArg List.length this
      simp [net16_length] at this
      omega
    | cut hc' hl' hr =>
      rw [List.append_assoc] at hw
      obtain ⟨rfl, h2, rfl⟩ := inj hc hc' hl hl' hw
      simp at hr
      omega
    | bad hc' hl' ho' =>
      rw [List.append_assoc, List.append_assoc] at hw
      obtain ⟨rfl, h2, h3⟩ := inj hc hc' hl hl' hw
      obtain ⟨rfl, rfl⟩ := pre h2 h3
      rw [ho] at ho'; cases ho'
  | one =>
    intro s' h'
    generalize hw : [_] = w at h'
    cases h' with
    | one => rfl
    | _ => have := congrArg List.length hw; simp [net16_length] at this; try omega
  | @short code rest hc hr =>
    intro s' h'
    generalize hw : net16 code ++ rest = w at h'
    cases h' with
    | one => have := congrArg List.length hw; simp [net16_length] at this; try omega
    | short hc' hr' => rw [(net16_inj hc hc' hw).1]
    | last hc' hl' _ =>
      rw [List.append_assoc] at hw
      have := congrArg List.length (net16_inj hc hc' hw).2; simp [net16_length] at this; omega
    | more hc' hl' _ _ _ =>
      rw [List.append_assoc, List.append_assoc] at hw
      have := congrArg List.length (net16_inj hc hc' hw).2; simp [net16_length] at this; omega
    | cut hc' hl' _ =>
      rw [List.append_assoc] at hw
      have := congrArg List.length (net16_inj hc hc' hw).2; simp [net16_length] at this; omega
    | bad hc' hl' _ =>
      rw [List.append_assoc, List.append_assoc] at hw
      have := congrArg List.length (net16_inj hc hc' hw).2; simp [net16_length] at this; omega
  | @cut code len rest hc hl hr =>
    intro s' h'
    generalize hw : net16 code ++ net16 len ++ rest = w at h'
    rw [List.append_assoc] at hw
    cases h' with
    | one => have := congrArg List.length hw; simp [net16_length] at this; try omega
    | short hc' hr' => rw [(net16_inj hc hc' hw).1]
    | last hc' hl' _ =>
      rw [List.append_assoc] at hw
      obtain ⟨rfl, h2, rfl⟩ := inj hc hc' hl hl' hw
      omega
    | more hc' hl' _ _ _ =>
      rw [List.append_assoc, List.append_assoc] at hw
      obtain ⟨rfl, h2, rfl⟩ := inj hc hc' hl hl' hw
      simp at hr; omega
    | cut hc' hl' _ =>
      rw [List.append_assoc] at hw
      rw [(inj hc hc' hl hl' hw).1]
    | bad hc' hl' _ =>
      rw [List.append_assoc, List.append_assoc] at hw
      obtain ⟨rfl, h2, rfl⟩ := inj hc hc' hl hl' hw
      simp at hr; omega
  | @bad code data rest hc hl ho =>
    intro s' h'
    generalize hw : net16 code ++ net16 data.length ++ data ++ rest = w at h'
    rw [List.append_assoc, List.append_assoc] at hw
    cases h' with
    | one => have := congrArg List.length hw; simp [net16_length] at this; try omega
    | short hc' hr' =>
      have := congrArg List.length (net16_inj hc hc' hw).2; simp [net16_length] at this; omega
    | last hc' hl' ho' =>
      rw [List.append_assoc] at hw
      obtain ⟨rfl, h2, h3⟩ := inj hc hc' hl hl' hw
      have := (pre (x' := []) h2 (by simpa using h3)).1
      subst this
      rw [ho] at ho'; cases ho'
    | more hc' hl' ho' _ _ =>
      rw [List.append_assoc, List.append_assoc] at hw
      obtain ⟨rfl, h2, h3⟩ := inj hc hc' hl hl' hw
      have := (pre h2 h3).1
      subst this
      rw [ho] at ho'; cases ho'
    | cut hc' hl' hr =>
      rw [List.append_assoc] at hw
      obtain ⟨rfl, h2, rfl⟩ := inj hc hc' hl hl' hw
      simp at hr; omega
    | bad hc' hl' ho' =>
      rw [List.append_assoc, List.append_assoc] at hw
      rw [(inj hc hc' hl hl' hw).1]

end Wdns
