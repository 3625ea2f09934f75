import Verif.Props.TextIdentity

/-!
# C120, EDNS options: what the text of a message tells about the options of its OPT record
-/

namespace Wdns
open Outcome Spec

namespace Spec

/-- Two values of an option with the given code that are written alike: the same octets; for a client subnet the same address after
filling up with zeros (and the same family and prefix lengths); for an extended error the same number, and extra texts that agree
in their printable octets. -/
inductive SameData : Nat → List UInt8 → List UInt8 → Prop
  | other {code d} : code ≠ 8 → code ≠ 15 → SameData code d d
  | subnet {f0 f1 source scope : UInt8} {n : Nat} {a b : List UInt8} : (be16 f0 f1 = 1 ∧ n = 4) ∨ (be16 f0 f1 = 2 ∧ n = 16) →
      a.length ≤ n → b.length ≤ n → padTo n a = padTo n b → SameData 8 (f0 :: f1 :: source :: scope :: a) (f0 :: f1 :: source :: scope :: b)
  | error {i0 i1 : UInt8} {a b : List UInt8} : dots a = dots b → SameData 15 (i0 :: i1 :: a) (i0 :: i1 :: b)

/-- Octets that end before the option with this code is complete. -/
def Unfinished (code : Nat) (w : List UInt8) : Prop :=
  (∃ rest : List UInt8, rest.length < 2 ∧ w = net16 code ++ rest) ∨
  (∃ (len : Nat) (rest : List UInt8), len < 65536 ∧ rest.length < len ∧ w = net16 code ++ net16 len ++ rest)

/-- Two lists of options that are written alike: the same codes in the same order with values that are written alike; at the first
malformed option both stop. -/
inductive SameOptions : List UInt8 → List UInt8 → Prop
  | last {code d d'} : d.length < 65536 → d'.length < 65536 → SameData code d d' →
      SameOptions (net16 code ++ net16 d.length ++ d) (net16 code ++ net16 d'.length ++ d')
  | more {code d d' r r'} : d.length < 65536 → d'.length < 65536 → SameData code d d' → SameOptions r r' →
      SameOptions (net16 code ++ net16 d.length ++ d ++ r) (net16 code ++ net16 d'.length ++ d' ++ r')
  | lone {a b} : SameOptions [a] [b]
  | unfinished {code w w'} : Unfinished code w → Unfinished code w' → SameOptions w w'
  | bad {code d d' r r'} : optText code d = none → optText code d' = none →
      SameOptions (net16 code ++ net16 d.length ++ d ++ r) (net16 code ++ net16 d'.length ++ d' ++ r')

/-- No options in both, or lists that are written alike. -/
def SameList (w w' : List UInt8) : Prop := (w = [] ∧ w' = []) ∨ SameOptions w w'

end Spec

theorem byte_be16_inj {a b c d : UInt8} (h : be16 a b = be16 c d) : a = c ∧ b = d := by
  have := net16_be16 a b
  rw [h, net16_be16 c d] at this
  simp at this
  exact ⟨this.1.symm, this.2.symm⟩

theorem decText_cons (n : Nat) : ∃ c z, decText n = c :: z ∧ 48 ≤ c.toNat ∧ c.toNat ≤ 57 := by
  have h := decText_isDecimal n
  cases e : decText n with
  | nil => exact absurd e h.1
  | cons c z =>
    have := h.2.1 c (by rw [e]; exact List.mem_cons_self)
    exact ⟨c, z, rfl, this⟩

theorem optText_start {code : Nat} {d t : List UInt8} (h : optText code d = some t) : ∃ c z, t = c :: z ∧ c ≠ 35 ∧ c ≠ 32 := by
  unfold optText at h
  split at h
  · unfold subnetText at h
    split at h
    · rename_i f0 f1 source scope addr
      have key : ∀ {x y : List UInt8}, Plain x → x ≠ [] → ∃ c z, x ++ y = c :: z ∧ c ≠ 35 ∧ c ≠ 32 := by
        intro x y hp hx
        cases x with
        | nil => exact absurd rfl hx
        | cons c z =>
          have := hp c List.mem_cons_self
          refine ⟨c, _, rfl, ?_, ?_⟩ <;> rintro rfl <;> simp at this
      dsimp only at h
      split at h
      · cases h
        exact key (plain_dottedQuad _ _ _ _) (quadText_ne_nil _)
      · split at h
        · rename_i h2
          cases h
          refine key (plain_ip6Text _) (ip6Text_ne_nil ?_)
          simp only [padTo, List.length_append, List.length_replicate]
          have := h2.2
          omega
        · cases h
    · cases h
  · split at h
    · unfold edeText at h
      split at h
      · rename_i i0 i1 rest
        cases h
        obtain ⟨c, z, h1, h2⟩ := decText_cons (be16 i0 i1)
        refine ⟨c, _, by simp only [h1, List.cons_append]; rfl, ?_, ?_⟩ <;> rintro rfl <;> simp at h2
      · cases h
    · cases h
      unfold otherOptText
      cases d with
      | nil => exact ⟨40, _, by rfl, by decide, by decide⟩
      | cons b d =>
        simp only [List.flatMap_cons, hexText, List.flatMap_nil, List.cons_append, List.nil_append]
        refine ⟨_, _, rfl, ?_, ?_⟩
        · have : ∀ n < 16, hexDigit false n ≠ 35 := by decide
          have hb := b.toNat_lt
          exact this _ (by omega)
        · have : ∀ n < 16, hexDigit false n ≠ 32 := by decide
          have hb := b.toNat_lt
          exact this _ (by omega)

theorem hexDigit_inj : ∀ a < 16, ∀ b < 16, hexDigit false a = hexDigit false b → a = b := by decide +kernel

theorem hexDigit_paren : ∀ a < 16, hexDigit false a ≠ 40 := by decide +kernel

theorem otherOptText_inj : ∀ {d d' x y : List UInt8},
    (d.flatMap fun b => hexText false [b] ++ [32]) ++ 40 :: x = (d'.flatMap fun b => hexText false [b] ++ [32]) ++ 40 :: y → d = d'
  | [], [], _, _, _ => rfl
  | [], b :: d', x, y, h => by
    simp only [List.flatMap_cons, hexText, List.flatMap_nil, List.cons_append, List.nil_append, List.cons.injEq] at h
    have hb := b.toNat_lt
    exact absurd h.1.symm (hexDigit_paren _ (by omega))
  | b :: d, [], x, y, h => by
    simp only [List.flatMap_cons, hexText, List.flatMap_nil, List.cons_append, List.nil_append, List.cons.injEq] at h
    have hb := b.toNat_lt
    exact absurd h.1 (hexDigit_paren _ (by omega))
  | b :: d, b' :: d', x, y, h => by
    rw [List.flatMap_cons, List.flatMap_cons] at h
    simp only [hexText, List.flatMap_cons, List.flatMap_nil, List.cons_append, List.nil_append, List.cons.injEq, true_and] at h
    have hb := b.toNat_lt
    have hb' := b'.toNat_lt
    have h1 := hexDigit_inj _ (by omega) _ (by omega) h.1
    have h2 := hexDigit_inj _ (by omega) _ (by omega) h.2.1
    have := otherOptText_inj (d := d) (d' := d') (x := x) (y := y) (by simpa only [hexText, List.flatMap_cons, List.flatMap_nil, List.cons_append, List.nil_append] using h.2.2)
    rw [this, show b = b' from UInt8.toNat.inj (by omega)]

theorem colon_ip6Text {a : List UInt8} (h : a.length = 16) : (58 : UInt8) ∈ ip6Text a := by
  unfold ip6Text
  dsimp only
  split
  · match a, h with
    | [_, _, _, _, _, _, _, _, _, _, _, _, _, _, _, _], _ =>
      simp [wordsText, words16]
  · split
    · simp
    · split <;> simp

theorem no_colon_quad (v : List UInt8) : (58 : UInt8) ∉ quadText v := by
  unfold quadText dottedQuad
  simp only [List.mem_append, List.mem_singleton, not_or]
  refine ⟨⟨⟨⟨⟨⟨?_, by decide⟩, ?_⟩, by decide⟩, ?_⟩, by decide⟩, ?_⟩ <;> exact digits_not _ _ (by decide)

theorem cut_last {c : UInt8} {a b x y : List UInt8} (hb : c ∉ b) (hy : c ∉ y) (h : a ++ c :: b = x ++ c :: y) : a = x ∧ b = y := by
  have h := congrArg List.reverse h
  simp only [List.reverse_append, List.reverse_cons, List.append_assoc, List.cons_append, List.nil_append] at h
  obtain ⟨h1, h2⟩ := cut_at (by simpa using hb) (by simpa using hy) h
  exact ⟨List.reverse_inj.mp h2, List.reverse_inj.mp h1⟩

theorem subnetText_inj {d d' t : List UInt8} (h : subnetText d = some t) (h' : subnetText d' = some t) : SameData 8 d d' := by
  -- what a text is made of
  have parts : ∀ {d}, subnetText d = some t → ∃ f0 f1 source scope a n s, d = f0 :: f1 :: source :: scope :: a ∧ a.length ≤ n ∧
      t = s ++ ascii "/" ++ decText source.toNat ++ ascii "/" ++ decText scope.toNat ∧
      ((be16 f0 f1 = 1 ∧ n = 4 ∧ s = quadText (padTo 4 a)) ∨ (be16 f0 f1 = 2 ∧ n = 16 ∧ s = ip6Text (padTo 16 a))) := by
    intro d h
    unfold subnetText at h
    split at h
    · rename_i f0 f1 source scope addr
      dsimp only at h
      split at h
      · rename_i hc
        cases h
        refine ⟨_, _, _, _, _, 4, _, rfl, hc.2, by simp only [List.append_assoc], .inl ⟨hc.1, rfl, rfl⟩⟩
      · split at h
        · rename_i hc
          cases h
          refine ⟨_, _, _, _, _, 16, _, rfl, hc.2, by simp only [List.append_assoc], .inr ⟨hc.1, rfl, rfl⟩⟩
        · cases h
    · cases h
  obtain ⟨f0, f1, so, sc, a, n, s, rfl, ha, ht, hk⟩ := parts h
  obtain ⟨g0, g1, so', sc', a', n', s', rfl, ha', ht', hk'⟩ := parts h'
  rw [ht] at ht'
  have e1 : ascii "/" = [47] := by decide
  rw [e1] at ht'
  simp only [List.append_assoc, List.cons_append, List.nil_append] at ht'
  have ht' : (s ++ 47 :: decText so.toNat) ++ 47 :: decText sc.toNat = (s' ++ 47 :: decText so'.toNat) ++ 47 :: decText sc'.toNat := by
    simpa only [List.append_assoc, List.cons_append, List.nil_append] using ht'
  obtain ⟨k0, k4⟩ := cut_last (digits_not _ _ (by decide)) (digits_not _ _ (by decide)) ht'
  obtain ⟨k1, k3⟩ := cut_last (digits_not _ _ (by decide)) (digits_not _ _ (by decide)) k0
  have j1 := UInt8.toNat.inj (decText_inj k3)
  have j2 := UInt8.toNat.inj (decText_inj k4)
  subst j1 j2
  have len : ∀ {n : Nat} {x : List UInt8}, x.length ≤ n → (padTo n x).length = n := by
    intro n x hx
    simp only [padTo, List.length_append, List.length_replicate]; omega
  rcases hk with ⟨b1, rfl, rfl⟩ | ⟨b1, rfl, rfl⟩ <;> rcases hk' with ⟨b2, rfl, rfl⟩ | ⟨b2, rfl, rfl⟩
  · obtain ⟨rfl, rfl⟩ := byte_be16_inj (b1.trans b2.symm)
    have p1 := pton4_quad (len ha)
    have p2 := pton4_quad (len ha')
    rw [k1, p2] at p1
    exact .subnet (.inl ⟨b1, rfl⟩) ha ha' (Option.some.inj p1).symm
  · exact absurd (k1 ▸ colon_ip6Text (len ha')) (no_colon_quad _)
  · exact absurd (k1 ▸ colon_ip6Text (len ha)) (no_colon_quad _)
  · obtain ⟨rfl, rfl⟩ := byte_be16_inj (b1.trans b2.symm)
    have p1 := pton6_ip6Text (len ha)
    have p2 := pton6_ip6Text (len ha')
    rw [k1, p2] at p1
    exact .subnet (.inr ⟨b1, rfl⟩) ha ha' (Option.some.inj p1).symm

theorem digits_cut : ∀ {a b : List UInt8} {c d : UInt8} {x y : List UInt8}, (∀ u ∈ a, IsDigit u) → (∀ u ∈ b, IsDigit u) →
    ¬ (48 ≤ c.toNat ∧ c.toNat ≤ 57) → ¬ (48 ≤ d.toNat ∧ d.toNat ≤ 57) → a ++ c :: x = b ++ d :: y → a = b
  | [], [], _, _, _, _, _, _, _, _, _ => rfl
  | [], b :: bs, c, d, x, y, _, hb, hc, _, h => by
    simp only [List.nil_append, List.cons_append, List.cons.injEq] at h
    exact absurd (h.1 ▸ hb b List.mem_cons_self) hc
  | a :: as, [], c, d, x, y, ha, _, _, hd, h => by
    simp only [List.nil_append, List.cons_append, List.cons.injEq] at h
    exact absurd (h.1 ▸ ha a List.mem_cons_self) hd
  | a :: as, b :: bs, c, d, x, y, ha, hb, hc, hd, h => by
    simp only [List.cons_append, List.cons.injEq] at h
    rw [h.1, digits_cut (fun u m => ha u (List.mem_cons_of_mem _ m)) (fun u m => hb u (List.mem_cons_of_mem _ m)) hc hd h.2]

theorem edeText_inj {d d' t : List UInt8} (h : edeText d = some t) (h' : edeText d' = some t) : SameData 15 d d' := by
  unfold edeText at h h'
  split at h
  · split at h'
    · rename_i i0 i1 x _ j0 j1 y
      have h := Option.some.inj h
      have h' := Option.some.inj h'
      rw [← h'] at h
      simp only [List.append_assoc] at h
      -- the number
      have num : decText (be16 i0 i1) = decText (be16 j0 j1) := by
        have stop : ∀ (o : Option String) (x : List UInt8), ∃ c z, ((o.elim [] fun s => ascii " (" ++ (ascii s ++ ascii ")")) ++ (ascii ": (" ++ x)) = c :: z ∧
            ¬ (48 ≤ c.toNat ∧ c.toNat ≤ 57) := by
          intro o x
          cases o with
          | none => exact ⟨58, _, by rfl, by decide⟩
          | some s => exact ⟨32, _, by rfl, by decide⟩
        obtain ⟨c, z, e1, e2⟩ := stop (edeNames[be16 i0 i1]?) (dots x ++ ascii ")")
        obtain ⟨c', z', e1', e2'⟩ := stop (edeNames[be16 j0 j1]?) (dots y ++ ascii ")")
        rw [e1, e1'] at h
        exact digits_cut (decText_isDecimal _).2.1 (decText_isDecimal _).2.1 e2 e2' h
      obtain ⟨rfl, rfl⟩ := byte_be16_inj (decText_inj num)
      have h := List.append_cancel_left (List.append_cancel_left (List.append_cancel_left h))
      exact .error (List.append_cancel_right h)
    · cases h'
  · cases h

theorem optText_inj {code : Nat} {d d' t : List UInt8} (h : optText code d = some t) (h' : optText code d' = some t) : SameData code d d' := by
  unfold optText at h h'
  by_cases h8 : code = 8
  · rw [if_pos h8] at h h'
    rw [h8]; exact subnetText_inj h h'
  · rw [if_neg h8] at h h'
    by_cases h15 : code = 15
    · rw [if_pos h15] at h h'
      rw [h15]; exact edeText_inj h h'
    · rw [if_neg h15] at h h'
      have e := (Option.some.inj h).trans (Option.some.inj h').symm
      unfold otherOptText at e
      obtain ⟨q, hq⟩ : ∃ q, ascii "(\"" = 40 :: q := ⟨_, by rfl⟩
      rw [hq] at e
      simp only [List.append_assoc, List.cons_append] at e
      rw [otherOptText_inj e]
      exact .other h8 h15

theorem optLabel_inj {c c' : Nat} {x y : List UInt8} (h : optLabel c ++ x = optLabel c' ++ y) : c = c' ∧ x = y := by
  have key : ∀ c, ∃ l, optLabel c = l ++ [58] ∧ (58 : UInt8) ∉ l ∧ ((c = 8 ∧ l = ascii "CLIENT-SUBNET") ∨ (c = 15 ∧ l = ascii "EDE") ∨
      (c ≠ 8 ∧ c ≠ 15 ∧ l = ascii "OPT=" ++ decText c)) := by
    intro c
    unfold optLabel
    by_cases h8 : c = 8
    · rw [if_pos h8]; exact ⟨_, by rfl, by decide, .inl ⟨h8, rfl⟩⟩
    · rw [if_neg h8]
      by_cases h15 : c = 15
      · rw [if_pos h15]; exact ⟨_, by rfl, by decide, .inr (.inl ⟨h15, rfl⟩)⟩
      · rw [if_neg h15]
        refine ⟨_, by rfl, ?_, .inr (.inr ⟨h8, h15, rfl⟩)⟩
        rw [List.mem_append, not_or]
        exact ⟨by decide, digits_not _ _ (by decide)⟩
  obtain ⟨l, e, n, k⟩ := key c
  obtain ⟨l', e', n', k'⟩ := key c'
  rw [e, e'] at h
  simp only [List.append_assoc, List.cons_append, List.nil_append] at h
  obtain ⟨h1, h2⟩ := cut_at n n' h
  refine ⟨?_, h2⟩
  have o : ∀ n, ∃ z, ascii "OPT=" ++ decText n = 79 :: z := fun n => ⟨_, by rfl⟩
  obtain ⟨z, hz⟩ := o c
  obtain ⟨z', hz'⟩ := o c'
  obtain ⟨z1, hz1⟩ : ∃ z, ascii "CLIENT-SUBNET" = 67 :: z := ⟨_, by rfl⟩
  obtain ⟨z2, hz2⟩ : ∃ z, ascii "EDE" = 69 :: z := ⟨_, by rfl⟩
  rcases k with ⟨a, b⟩ | ⟨a, b⟩ | ⟨-, -, b⟩ <;> rcases k' with ⟨a', b'⟩ | ⟨a', b'⟩ | ⟨-, -, b'⟩
  · omega
  · rw [b, b', hz1, hz2] at h1; simp at h1
  · rw [b, b', hz1, hz'] at h1; simp at h1
  · rw [b, b', hz1, hz2] at h1; simp at h1
  · omega
  · rw [b, b', hz', hz2] at h1; simp at h1
  · rw [b, b', hz1, hz] at h1; simp at h1
  · rw [b, b', hz, hz2] at h1; simp at h1
  · rw [b, b'] at h1
    exact decText_inj (List.append_cancel_left h1)

theorem opts_view {w s : List UInt8} (h : OptsText w s) : (∃ b, w = [b] ∧ s = ascii " ### PARSE ERROR ###") ∨
    ∃ code v, s = optLabel code ++ 32 :: v ∧
      ((∃ d, d.length < 65536 ∧ optText code d = some v ∧ w = net16 code ++ net16 d.length ++ d) ∨
       (∃ d t r z, d.length < 65536 ∧ optText code d = some t ∧ OptsText r z ∧ w = net16 code ++ net16 d.length ++ d ++ r ∧ v = t ++ 10 :: z) ∨
       (Unfinished code w ∧ v = ascii "### PARSE ERROR ###") ∨
       (∃ d r, optText code d = none ∧ w = net16 code ++ net16 d.length ++ d ++ r ∧ v = ascii " ### PARSE ERROR #12 ###")) := by
  have e1 : ascii " ### PARSE ERROR ###" = 32 :: ascii "### PARSE ERROR ###" := by decide
  have e2 : ascii "  ### PARSE ERROR #12 ###" = 32 :: ascii " ### PARSE ERROR #12 ###" := by decide
  cases h with
  | last h1 h2 h3 => exact .inr ⟨_, _, by simp only [List.append_assoc, List.cons_append, List.nil_append], .inl ⟨_, h2, h3, rfl⟩⟩
  | more h1 h2 h3 h4 h5 =>
    exact .inr ⟨_, _, by simp only [List.append_assoc, List.cons_append, List.nil_append], .inr (.inl ⟨_, _, _, _, h2, h3, h5, rfl, rfl⟩)⟩
  | one => exact .inl ⟨_, rfl, rfl⟩
  | short h1 h2 => exact .inr ⟨_, _, by rw [e1], .inr (.inr (.inl ⟨.inl ⟨_, h2, rfl⟩, rfl⟩))⟩
  | cut h1 h2 h3 => exact .inr ⟨_, _, by rw [e1], .inr (.inr (.inl ⟨.inr ⟨_, _, h2, h3, rfl⟩, rfl⟩))⟩
  | bad h1 h2 h3 => exact .inr ⟨_, _, by rw [e2], .inr (.inr (.inr ⟨_, _, h3, rfl, rfl⟩))⟩

theorem optText_no_newline {code : Nat} {d t : List UInt8} (h : optText code d = some t) : (10 : UInt8) ∉ t := by
  intro m
  have := (printable_optText h).1 10 m
  simp at this

theorem opts_inj {w s : List UInt8} (h : OptsText w s) : ∀ {w' : List UInt8}, OptsText w' s → SameOptions w w' := by
  obtain ⟨n, hn⟩ : ∃ n, w.length ≤ n := ⟨_, Nat.le_refl _⟩
  induction n generalizing w s with
  | zero =>
    have : w = [] := List.length_eq_zero_iff.mp (by omega)
    subst this
    generalize hw : ([] : List UInt8) = w at h
    cases h <;> simp [net16] at hw
  | succ n ih =>
    intro w' h'
    obtain ⟨q1, hq1⟩ : ∃ q, ascii "### PARSE ERROR ###" = 35 :: q := ⟨_, by rfl⟩
    obtain ⟨q2, hq2⟩ : ∃ q, ascii " ### PARSE ERROR #12 ###" = 32 :: q := ⟨_, by rfl⟩
    obtain ⟨q3, hq3⟩ : ∃ q, ascii " ### PARSE ERROR ###" = 32 :: q := ⟨_, by rfl⟩
    have lab : ∀ c x q, optLabel c ++ x ≠ 32 :: q := by
      intro c x q e
      unfold optLabel at e
      split at e
      · simp [ascii] at e
      · split at e <;> simp [ascii] at e
    -- a value does not look like a marker, and has one line
    have mark : ∀ {code : Nat} {d t x : List UInt8}, optText code d = some t → t ++ x ≠ ascii "### PARSE ERROR ###" ∧ t ++ x ≠ ascii " ### PARSE ERROR #12 ###" := by
      intro code d t x ht
      obtain ⟨c, z, rfl, s2, s3⟩ := optText_start ht
      rw [hq1, hq2]
      constructor
      · intro e; exact s2 (List.cons.inj e).1
      · intro e; exact s3 (List.cons.inj e).1
    have m12 : ascii "### PARSE ERROR ###" ≠ ascii " ### PARSE ERROR #12 ###" := by decide
    rcases opts_view h with ⟨b, rfl, e⟩ | ⟨code, v, e, hv⟩ <;> rcases opts_view h' with ⟨b', rfl, e'⟩ | ⟨code', v', e', hv'⟩
    · exact .lone
    · rw [e, hq3] at e'; exact absurd e'.symm (lab _ _ _)
    · rw [e', hq3] at e; exact absurd e.symm (lab _ _ _)
    · rw [e] at e'
      obtain ⟨rfl, e2⟩ := optLabel_inj e'
      have e3 := (List.cons.inj e2).2
      subst e3
      rcases hv with ⟨d, a1, a2, rfl⟩ | ⟨d, t, r, z, a1, a2, a3, rfl, rfl⟩ | ⟨u, rfl⟩ | ⟨d, r, a1, rfl, rfl⟩
      · rcases hv' with ⟨d', b1, b2, rfl⟩ | ⟨d', t', r', z', b1, b2, b3, rfl, k⟩ | ⟨u, k⟩ | ⟨d', r', b1, rfl, k⟩
        · exact .last a1 b1 (optText_inj a2 b2)
        · exact absurd (by rw [k]; simp) (optText_no_newline a2)
        · exact absurd (by rw [List.append_nil, k]) (mark (x := []) a2).1
        · exact absurd (by rw [List.append_nil, k]) (mark (x := []) a2).2
      · rcases hv' with ⟨d', b1, b2, rfl⟩ | ⟨d', t', r', z', b1, b2, b3, rfl, k⟩ | ⟨u, k⟩ | ⟨d', r', b1, rfl, k⟩
        · exact absurd (by simp) (optText_no_newline b2)
        · obtain ⟨rfl, rfl⟩ := cut_at (optText_no_newline a2) (optText_no_newline b2) k
          refine .more a1 b1 (optText_inj a2 b2) (ih a3 ?_ b3)
          simp only [List.length_append, net16, List.length_cons, List.length_nil] at hn
          omega
        · exact absurd k (mark a2).1
        · exact absurd k (mark a2).2
      · rcases hv' with ⟨d', b1, b2, rfl⟩ | ⟨d', t', r', z', b1, b2, b3, rfl, k⟩ | ⟨u', k⟩ | ⟨d', r', b1, rfl, k⟩
        · exact absurd (by rw [List.append_nil]) (mark (x := []) b2).1
        · exact absurd k.symm (mark b2).1
        · exact .unfinished u u'
        · exact absurd k m12
      · rcases hv' with ⟨d', b1, b2, rfl⟩ | ⟨d', t', r', z', b1, b2, b3, rfl, k⟩ | ⟨u', k⟩ | ⟨d', r', b1, rfl, k⟩
        · exact absurd (by rw [List.append_nil]) (mark (x := []) b2).2
        · exact absurd k.symm (mark b2).2
        · exact absurd k.symm m12
        · exact .bad a1 b1

theorem flat_inj : ∀ {s t : List UInt8}, (s.flatMap fun c => if c = 10 then ascii "\n; " else [c]) =
    (t.flatMap fun c => if c = 10 then ascii "\n; " else [c]) → s = t := by
  have e : ascii "\n; " = [10, 59, 32] := by decide
  rw [e]
  intro s
  induction s with
  | nil =>
    intro t h
    cases t with
    | nil => rfl
    | cons c t => rw [List.flatMap_cons] at h; split at h <;> simp at h
  | cons c s ih =>
    intro t h
    cases t with
    | nil => rw [List.flatMap_cons] at h; split at h <;> simp at h
    | cons d t =>
      rw [List.flatMap_cons, List.flatMap_cons] at h
      by_cases h1 : c = 10 <;> by_cases h2 : d = 10
      · rw [if_pos h1, if_pos h2] at h
        simp only [List.cons_append, List.nil_append, List.cons.injEq, true_and] at h
        rw [h1, h2, ih h]
      · rw [if_pos h1, if_neg h2] at h
        simp only [List.cons_append, List.nil_append, List.cons.injEq] at h
        exact absurd h.1.symm h2
      · rw [if_neg h1, if_pos h2] at h
        simp only [List.cons_append, List.nil_append, List.cons.injEq] at h
        exact absurd h.1 h1
      · rw [if_neg h1, if_neg h2] at h
        simp only [List.cons_append, List.nil_append, List.cons.injEq] at h
        rw [h.1, ih h.2]

/-- The option list is written, and is written alike. -/
theorem options_inj {a b : Edns} {e : List UInt8} (ha : EdnsLines a e) (hb : EdnsLines b e) (pa : a.present = true) (pb : b.present = true)
    (hs : Spec.SameEdns a b) : Spec.SameList (a.options.elim [] (·.bytes)) (b.options.elim [] (·.bytes)) := by
  obtain ⟨-, hs⟩ := hs
  obtain ⟨h1, h2, h3⟩ := hs pa
  have view : ∀ {a : Edns}, EdnsLines a e → a.present = true →
      let head := ascii "\n;; OPT PSEUDOSECTION:\n; EDNS: version: " ++ decText a.version ++ ascii ", flags:" ++
        (if a.flags / 32768 % 2 = 1 then ascii " do" else []) ++ ascii "; udp: " ++ decText a.size
      (a.options.elim [] (·.bytes) = [] ∧ e = head) ∨ ∃ s, OptsText (a.options.elim [] (·.bytes)) s ∧
        e = head ++ (ascii "\n; " ++ s.flatMap fun c => if c = 10 then ascii "\n; " else [c]) := by
    intro a h p
    unfold EdnsLines at h
    rw [if_neg (by simp [p])] at h
    dsimp only at h ⊢
    cases ho : a.options with
    | none => rw [ho] at h; exact .inl ⟨rfl, h⟩
    | some o =>
      rw [ho] at h
      rcases h with ⟨x, y⟩ | ⟨s, x, y⟩
      · exact .inl ⟨x, y⟩
      · exact .inr ⟨s, x, by rw [y]; simp only [List.append_assoc]⟩
  have va := view ha pa
  have vb := view hb pb
  rw [h1, h3, if_congr h2 rfl rfl] at va
  dsimp only at va vb
  obtain ⟨q, hq⟩ : ∃ q, ascii "\n; " = 10 :: q := ⟨_, by rfl⟩
  rcases va with ⟨a1, a2⟩ | ⟨s, a1, a2⟩ <;> rcases vb with ⟨b1, b2⟩ | ⟨s', b1, b2⟩
  · rw [a1, b1]; exact .inl ⟨rfl, rfl⟩
  · rw [a2, hq] at b2
    have := congrArg List.length b2
    simp only [List.length_append, List.length_cons] at this
    omega
  · rw [b2, hq] at a2
    have := congrArg List.length a2
    simp only [List.length_append, List.length_cons] at this
    omega
  · rw [a2] at b2
    have := flat_inj (List.append_cancel_left (List.append_cancel_left b2))
    subst this
    exact .inr (opts_inj a1 b1)

/-- **C120, EDNS options.** Two packets that are written as the same text have the same list of EDNS options: the same codes in the
same order, with the same data (for client subnets: the same family, prefix lengths and address; for extended errors: the same
number and the same printable extra text), up to the first malformed option, where both stop. -/
theorem C120_options_partial {mem mem' : List UInt8} {len len' : Nat} {m m' : Message}
    (hm : len ≤ mem.length) (h64 : len < 2 ^ 64) (hlen : m.Fits) (hno : SvcNoLong (mem.take len)) (h : parseMessage mem len = ok m)
    (hm' : len' ≤ mem'.length) (h64' : len' < 2 ^ 64) (hlen' : m'.Fits) (hno' : SvcNoLong (mem'.take len'))
    (h' : parseMessage mem' len' = ok m') (e : messageToStr m = messageToStr m') :
    Spec.SameEdns m.edns m'.edns ∧ (m.edns.present = true →
      Spec.SameList (m.edns.options.elim [] (·.bytes)) (m'.edns.options.elim [] (·.bytes))) := by
  obtain ⟨s0, s1, s2, s3, ed, t0, t1, t2, t3, hs, he, l0, l1, l2, l3, ht⟩ := C62_message_text_partial mem len m hm h64 hlen hno h
  obtain ⟨s0', s1', s2', s3', ed', t0', t1', t2', t3', hs', he', l0', l1', l2', l3', ht'⟩ :=
    C62_message_text_partial mem' len' m' hm' h64' hlen' hno' h'
  rw [ht, ht'] at e
  have e := Outcome.ok.inj e
  simp only [List.append_assoc] at e
  obtain ⟨hh, e⟩ := header_inj e
  obtain ⟨hd, rfl, e⟩ := edns_inj he he' e
  exact ⟨hd, fun p => options_inj he he' p (hd.1 ▸ p) hd⟩

/-- Two packets with the option COOKIE that differ in it by an octet are not written alike; the hypotheses of `C120_options_partial` are met. -/
example : parseMessage [0, 0, 0, 0, 0, 0, 0, 0, 0, 0, 0, 1, 0, 0, 41, 2, 0, 0, 0, 0, 0, 0, 6, 0, 10, 0, 2, 1, 2] 29 =
      ok (bareParsed 0 ⟨true, 0, 0, 512, some ⟨6, [0, 10, 0, 2, 1, 2]⟩⟩) ∧
    ∃ t, messageToStr (bareParsed 0 ⟨true, 0, 0, 512, some ⟨6, [0, 10, 0, 2, 1, 2]⟩⟩) = ok t ∧
      messageToStr (bareParsed 0 ⟨true, 0, 0, 512, some ⟨6, [0, 10, 0, 2, 1, 3]⟩⟩) ≠ ok t := by
  refine ⟨by decide +kernel, _, rfl, ?_⟩
  decide +kernel

/-- Written alike but different: an address with and without its zero octets; an extra text with octets that are not printable; what
follows a malformed option. -/
theorem C120_options_violated :
    SameOptions (net16 8 ++ net16 5 ++ [0, 1, 8, 0, 10]) (net16 8 ++ net16 8 ++ [0, 1, 8, 0, 10, 0, 0, 0]) ∧
    messageToStr (bareParsed 0 ⟨true, 0, 0, 512, some ⟨9, net16 8 ++ net16 5 ++ [0, 1, 8, 0, 10]⟩⟩) =
      messageToStr (bareParsed 0 ⟨true, 0, 0, 512, some ⟨12, net16 8 ++ net16 8 ++ [0, 1, 8, 0, 10, 0, 0, 0]⟩⟩) ∧
    messageToStr (bareParsed 0 ⟨true, 0, 0, 512, some ⟨7, net16 15 ++ net16 3 ++ [0, 1, 7]⟩⟩) =
      messageToStr (bareParsed 0 ⟨true, 0, 0, 512, some ⟨7, net16 15 ++ net16 3 ++ [0, 1, 46]⟩⟩) ∧
    messageToStr (bareParsed 0 ⟨true, 0, 0, 512, some ⟨5, net16 10 ++ net16 9 ++ [1]⟩⟩) =
      messageToStr (bareParsed 0 ⟨true, 0, 0, 512, some ⟨5, net16 10 ++ net16 8 ++ [2]⟩⟩) :=
  ⟨.last (d := [0, 1, 8, 0, 10]) (d' := [0, 1, 8, 0, 10, 0, 0, 0]) (by decide) (by decide) (.subnet (n := 4) (.inl ⟨by decide, rfl⟩) (by decide) (by decide) (by decide)), by decide +kernel,
    by decide +kernel, by decide +kernel⟩

end Wdns
