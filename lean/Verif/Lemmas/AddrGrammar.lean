import Verif.Spec.AddrGrammar
import Verif.Lemmas.Inet

namespace Wdns
open Outcome Spec

/-! ## IPv4 -/

/-- The octets already read, each followed by a dot. -/
def dotted (done : List UInt8) : List UInt8 := done.flatMap fun b => decText b.toNat ++ [46]

theorem u8_digit {c : UInt8} (h : 48 ≤ c.toNat ∧ c.toNat ≤ 57) : c = UInt8.ofNat (48 + (c.toNat - 48)) := by
  rw [show 48 + (c.toNat - 48) = c.toNat by omega, u8_ofNat_toNat]

theorem pton4_sound : ∀ (s done : List UInt8) (cur : Nat) (saw : Bool) (r : List UInt8), cur ≤ 255 → (saw = false → cur = 0) →
    pton4Loop s done cur saw = some r →
    ∃ a, r.length = 4 ∧ r = r.take 3 ++ [a] ∧ dotted done ++ (if saw then decText cur else []) ++ s = dotted (r.take 3) ++ decText a.toNat
  | [], done, cur, saw, r, hc, h0, h => by
    unfold pton4Loop at h
    split at h
    · rename_i hs
      simp only [Option.some.injEq] at h
      subst h
      have ht : (done ++ [UInt8.ofNat cur]).take 3 = done := by rw [← hs.2]; simp
      refine ⟨UInt8.ofNat cur, by simp [hs.2], by rw [ht], ?_⟩
      rw [ht, toNat_ofNat_lt (by omega), if_pos hs.1, List.append_nil]
    · cases h
  | c :: cs, done, cur, saw, r, hc, h0, h => by
    unfold pton4Loop at h
    split at h
    · rename_i hd
      simp only at h
      split at h
      · cases h
      split at h
      · cases h
      split at h
      · cases h
      rename_i h1 h2 h3
      obtain ⟨a, e1, e2, e3⟩ := pton4_sound cs done _ true r (by omega) (by simp) h
      refine ⟨a, e1, e2, ?_⟩
      rw [← e3, if_pos rfl]
      cases saw with
      | false =>
        have := h0 rfl
        subst this
        rw [Nat.zero_mul, Nat.zero_add, decText_lt (n := c.toNat - 48) (by omega), ← u8_digit hd]
        simp
      | true =>
        have hcur : cur ≠ 0 := fun h => h1 ⟨rfl, h⟩
        rw [if_pos rfl, decText_ge (n := cur * 10 + (c.toNat - 48)) (by omega),
          show (cur * 10 + (c.toNat - 48)) / 10 = cur by omega, show (cur * 10 + (c.toNat - 48)) % 10 = c.toNat - 48 by omega,
          ← u8_digit hd]
        simp
    · split at h
      · rename_i hd
        obtain ⟨rfl, rfl⟩ := hd
        split at h
        · cases h
        · obtain ⟨a, e1, e2, e3⟩ := pton4_sound cs _ 0 false r (by omega) (by simp) h
          refine ⟨a, e1, e2, ?_⟩
          rw [← e3]
          simp [dotted, toNat_ofNat_lt (show cur < 256 by omega)]
      · cases h

theorem inetPton4_iff (s r : List UInt8) : inetPton4 s = some r ↔ Ip4Reads s r := by
  constructor
  · intro h
    obtain ⟨x, e1, e2, e3⟩ := pton4_sound s [] 0 false r (by omega) (by simp) h
    match r, e1 with
    | [a, b, c, d], _ =>
      simp only [List.take_succ_cons, List.take_zero, List.cons_append, List.nil_append, List.cons.injEq, and_true, true_and] at e2
      subst e2
      refine ⟨a, b, c, d, ?_, rfl⟩
      simpa [dotted, dottedQuad] using e3
  · rintro ⟨a, b, c, d, rfl, rfl⟩
    exact pton4_dottedQuad a b c d

/-! ## IPv6 -/

theorem hexDigitValue_eq (c : UInt8) : hexDigitValue c = hexVal c := rfl

theorem hexVal_lt {c : UInt8} {d : Nat} (h : hexVal c = some d) : d < 16 := by
  unfold hexVal at h
  repeat' split at h
  all_goals simp at h
  all_goals omega

theorem hexNum_append (t : List UInt8) (c : UInt8) : hexNum (t ++ [c]) = 16 * hexNum t + (hexVal c).getD 0 := by simp [hexNum]

theorem hexNum_lt (t : List UInt8) : hexNum t < 16 ^ t.length := by
  induction t using List.reverseRecOn with
  | nil => simp [hexNum]
  | append_singleton t c ih =>
    rw [hexNum_append, List.length_append, List.length_singleton, Nat.pow_succ]
    have : (hexVal c).getD 0 < 16 := by
      cases h : hexVal c with
      | none => simp
      | some d => simpa using hexVal_lt h
    omega

/-- Hexadecimal digits are collected, at most four. -/
theorem p6_run (g : List UInt8) (hg : ∀ c ∈ g, hexVal c ≠ none) : ∀ (p s tp tok : List UInt8) (cp : Option Nat), p.length ≤ 4 →
    pton6Loop (g ++ s) tp cp tok p.length (hexNum p) =
      if p.length + g.length ≤ 4 then pton6Loop s tp cp tok (p.length + g.length) (hexNum (p ++ g)) else none := by
  induction g with
  | nil => intro p s tp tok cp hp; simp [hp]
  | cons c g ih =>
    intro p s tp tok cp hp
    obtain ⟨d, hd⟩ : ∃ d, hexVal c = some d := by
      cases h : hexVal c with
      | none => exact absurd h (hg c (by simp))
      | some d => exact ⟨d, rfl⟩
    have hd16 := hexVal_lt hd
    rw [List.cons_append, pton6Loop.eq_def]
    simp only [hexDigitValue_eq, hd]
    by_cases h4 : p.length = 4
    · rw [if_pos h4, if_neg (by simp; omega)]
    · have hl := hexNum_lt p
      have : 16 ^ p.length ≤ 16 ^ 3 := Nat.pow_le_pow_right (by omega) (by omega)
      rw [if_neg h4, if_neg (by omega)]
      have he : hexNum p * 16 + d = hexNum (p ++ [c]) := by rw [hexNum_append, hd]; simp; omega
      have hl' : p.length + 1 = (p ++ [c]).length := by simp
      rw [he, hl', ih (fun c hc => hg c (by simp [hc])) _ _ _ _ _ (by simp; omega)]
      simp [Nat.add_assoc, Nat.add_comm 1]

theorem groupOctets_length (g : List UInt8) : (groupOctets g).length = 2 := rfl

theorem groups_length {t f : List UInt8} (h : Groups t f) : 2 ≤ f.length := by
  induction h with
  | one => simp [groupOctets]
  | cons _ _ ih => simp [groupOctets]

theorem groups_ne_nil {t f : List UInt8} (h : Groups t f) : t ≠ [] := by
  cases h with
  | one h => intro he; subst he; simp [Group] at h
  | cons h _ => simp

theorem quad_ne_nil (a b c d : UInt8) : dottedQuad a b c d ≠ [] := by
  have := (dottedQuad_length a b c d).1
  intro h; rw [h] at this; simp at this

theorem groups4_ne_nil {t f : List UInt8} (h : Groups4 t f) : t ≠ [] := by
  cases h with
  | groups h => exact groups_ne_nil h
  | quad => exact quad_ne_nil _ _ _ _
  | both _ => simp

/-- The loop at the start of a group. -/
theorem p6_start (g s tp : List UInt8) (cp : Option Nat) (hg : ∀ c ∈ g, hexVal c ≠ none) :
    pton6Loop (g ++ s) tp cp (g ++ s) 0 0 = if g.length ≤ 4 then pton6Loop s tp cp (g ++ s) g.length (hexNum g) else none := by
  have := p6_run g hg [] s tp (g ++ s) cp (by simp)
  simpa [hexNum] using this

/-- What may follow `::`. -/
def Rest6 (t f : List UInt8) : Prop := (t = [] ∧ f = []) ∨ Groups4 t f

/-- A text is a run of hexadecimal digits followed by something else. -/
theorem hex_split (s : List UInt8) : ∃ g r, s = g ++ r ∧ (∀ c ∈ g, hexVal c ≠ none) ∧ (∀ c, r.head? = some c → hexVal c = none) := by
  induction s with
  | nil => exact ⟨[], [], rfl, by simp, by simp⟩
  | cons c s ih =>
    by_cases h : hexVal c = none
    · exact ⟨[], c :: s, rfl, by simp, by simpa using h⟩
    · obtain ⟨g, r, rfl, e1, e2⟩ := ih
      exact ⟨c :: g, r, rfl, by simpa using ⟨h, e1⟩, e2⟩

theorem finish_group {tp : List UInt8} {cp : Option Nat} {g : List UInt8} (hg : g ≠ []) (hl : tp.length + 2 ≤ 16) :
    pton6Finish tp cp g.length (hexNum g) = pton6Finish (tp ++ groupOctets g) cp 0 0 := by
  have hp : 0 < g.length := List.length_pos_iff.mpr hg
  unfold pton6Finish
  have h1 : ¬ (g.length > 0 ∧ tp.length + 2 > 16) := by omega
  have h2 : ¬ (0 > 0 ∧ (tp ++ groupOctets g).length + 2 > 16) := by omega
  rw [if_neg h1, if_neg h2]
  have h3 : g.length > 0 := hp
  simp only [if_pos h3, Nat.lt_irrefl, gt_iff_lt, if_false]
  rfl

theorem finish_val (tp : List UInt8) (cp : Option Nat) (v : Nat) : pton6Finish tp cp 0 v = pton6Finish tp cp 0 0 := by
  unfold pton6Finish; simp

theorem groups4_cons {g t f : List UInt8} (hg : Group g) (h : Groups4 t f) : Groups4 (g ++ 58 :: t) (groupOctets g ++ f) := by
  cases h with
  | groups h => exact .groups (.cons hg h)
  | quad => exact .both (.one hg)
  | @both t f a b c d h =>
    have := Groups4.both (a := a) (b := b) (c := c) (d := d) (Groups.cons hg h)
    simpa using this

/-- Where the loop leads from the start of a group. -/
def Leads (tp : List UInt8) (cp : Option Nat) (s r : List UInt8) : Prop :=
  (∃ f, Groups4 s f ∧ tp.length + f.length ≤ 16 ∧ pton6Finish (tp ++ f) cp 0 0 = some r) ∨
  (s = [] ∧ pton6Finish tp cp 0 0 = some r) ∨
  (cp = none ∧ ∃ l lf x f, ((l = [] ∧ lf = [] ∧ s = 58 :: x) ∨ (Groups l lf ∧ s = l ++ 58 :: 58 :: x)) ∧ Rest6 x f ∧
    tp.length + lf.length + f.length ≤ 16 ∧ pton6Finish (tp ++ lf ++ f) (some (tp.length + lf.length)) 0 0 = some r)

theorem p6_sound (n : Nat) : ∀ (s tp : List UInt8) (cp : Option Nat) (r : List UInt8), s.length ≤ n → tp.length ≤ 16 →
    pton6Loop s tp cp s 0 0 = some r → Leads tp cp s r := by
  induction n with
  | zero =>
    intro s tp cp r hs ht h
    have : s = [] := by simpa using hs
    subst this
    simp only [pton6Loop] at h
    exact Or.inr (Or.inl ⟨rfl, h⟩)
  | succ n ih =>
    intro s tp cp r hs ht h
    obtain ⟨g, t, rfl, hg, hc⟩ := hex_split s
    rw [p6_start g t tp cp hg] at h
    by_cases h4 : g.length ≤ 4
    swap
    · rw [if_neg h4] at h; cases h
    rw [if_pos h4] at h
    have hgroup : g ≠ [] → Group g := fun hne => ⟨List.length_pos_iff.mpr hne, h4, hg⟩
    cases t with
    | nil =>
      simp only [pton6Loop] at h
      by_cases hne : g = []
      · subst hne
        exact Or.inr (Or.inl ⟨rfl, h⟩)
      · by_cases hl : tp.length + 2 ≤ 16
        · rw [finish_group hne hl] at h
          exact Or.inl ⟨groupOctets g, by rw [List.append_nil]; exact .groups (.one (hgroup hne)), by simpa [groupOctets] using hl, h⟩
        · unfold pton6Finish at h
          rw [if_pos ⟨List.length_pos_iff.mpr hne, by omega⟩] at h
          cases h
    | cons c cs =>
      have hcn := hc c rfl
      rw [pton6Loop.eq_def] at h
      simp only [hexDigitValue_eq, hcn] at h
      by_cases h58 : c = 58
      · subst h58
        rw [if_pos rfl] at h
        by_cases hne : g = []
        · subst hne
          simp only [List.length_nil, if_true] at h
          cases cp with
          | some m => cases h
          | none =>
            simp only at h
            have := ih cs tp (some tp.length) r (by simp at hs; omega) ht h
            rcases this with ⟨f, e1, e2, e3⟩ | ⟨rfl, e⟩ | ⟨e, -⟩
            · exact Or.inr (Or.inr ⟨rfl, [], [], cs, f, Or.inl ⟨rfl, rfl, rfl⟩, Or.inr e1, by simpa using e2, by simpa using e3⟩)
            · exact Or.inr (Or.inr ⟨rfl, [], [], [], [], Or.inl ⟨rfl, rfl, rfl⟩, Or.inl ⟨rfl, rfl⟩, by simpa using ht, by simpa using e⟩)
            · cases e
        · have hlen : g.length ≠ 0 := by simpa using hne
          rw [if_neg hlen] at h
          by_cases hcs : cs = []
          · rw [if_pos hcs] at h; cases h
          rw [if_neg hcs] at h
          by_cases hl : tp.length + 2 > 16
          · rw [if_pos hl] at h; cases h
          rw [if_neg hl] at h
          have := ih cs (tp ++ groupOctets g) cp r (by simp at hs; omega) (by simp [groupOctets]; omega) h
          rcases this with ⟨f, e1, e2, e3⟩ | ⟨e, -⟩ | ⟨rfl, l, lf, x, f, e1, e2, e3, e4⟩
          · exact Or.inl ⟨groupOctets g ++ f, groups4_cons (hgroup hne) e1, by simp at e2 ⊢; omega, by simpa using e3⟩
          · exact absurd e hcs
          · refine Or.inr (Or.inr ⟨rfl, ?_⟩)
            rcases e1 with ⟨rfl, rfl, rfl⟩ | ⟨e1, rfl⟩
            · refine ⟨g, groupOctets g, x, f, Or.inr ⟨.one (hgroup hne), rfl⟩, e2, by simpa using e3, ?_⟩
              simpa using e4
            · refine ⟨g ++ 58 :: l, groupOctets g ++ lf, x, f, Or.inr ⟨.cons (hgroup hne) e1, by simp⟩, e2, ?_, ?_⟩
              · simp at e3 ⊢; omega
              · simpa [Nat.add_assoc] using e4
      · rw [if_neg h58] at h
        by_cases h46 : c = 46 ∧ tp.length + 4 ≤ 16
        · rw [if_pos h46] at h
          cases hq : inetPton4 (g ++ c :: cs) with
          | none => rw [hq] at h; cases h
          | some q =>
            rw [hq] at h
            simp only at h
            rw [finish_val] at h
            obtain ⟨a, b, c', d, e, rfl⟩ := (inetPton4_iff _ _).mp hq
            exact Or.inl ⟨[a, b, c', d], by rw [e]; exact .quad, by simpa using h46.2, h⟩
        · rw [if_neg h46] at h; cases h

/-! ### Completeness -/

theorem p6_group_colon {g x tp : List UInt8} {cp : Option Nat} (hg : Group g) (hx : x ≠ []) (hl : tp.length + 2 ≤ 16) :
    pton6Loop (g ++ 58 :: x) tp cp (g ++ 58 :: x) 0 0 = pton6Loop x (tp ++ groupOctets g) cp x 0 0 := by
  rw [p6_start g _ tp cp hg.2.2, if_pos hg.2.1, pton6Loop.eq_def]
  have : hexDigitValue 58 = none := by decide
  have hne : g.length ≠ 0 := by have := hg.1; omega
  simp only [this, if_true, if_neg hne, if_neg hx]
  rw [if_neg (by omega)]
  rfl

theorem p6_groups_colon {t f : List UInt8} (h : Groups t f) : ∀ (x tp : List UInt8) (cp : Option Nat), x ≠ [] → tp.length + f.length ≤ 16 →
    pton6Loop (t ++ 58 :: x) tp cp (t ++ 58 :: x) 0 0 = pton6Loop x (tp ++ f) cp x 0 0 := by
  induction h with
  | one hg => intro x tp cp hx hl; exact p6_group_colon hg hx (by simpa [groupOctets] using hl)
  | @cons g t f hg ht ih =>
    intro x tp cp hx hl
    rw [List.append_assoc, List.cons_append, p6_group_colon hg (by simp) (by simp [groupOctets] at hl; omega),
      ih x _ cp hx (by simp [groupOctets] at hl ⊢; omega)]
    simp

theorem p6_groups_end {t f : List UInt8} (h : Groups t f) : ∀ (tp : List UInt8) (cp : Option Nat), tp.length + f.length ≤ 16 →
    pton6Loop t tp cp t 0 0 = pton6Finish (tp ++ f) cp 0 0 := by
  induction h with
  | @one g hg =>
    intro tp cp hl
    have := p6_start g [] tp cp hg.2.2
    rw [List.append_nil, if_pos hg.2.1] at this
    rw [this, pton6Loop.eq_def]
    have hne : g ≠ [] := by rintro rfl; simp [Group] at hg
    exact finish_group hne (by simpa [groupOctets] using hl)
  | @cons g t f hg ht ih =>
    intro tp cp hl
    rw [p6_group_colon hg (groups_ne_nil ht) (by simp [groupOctets] at hl; omega), ih _ cp (by simp [groupOctets] at hl ⊢; omega)]
    simp

theorem p6_quad_end (a b c d : UInt8) (tp : List UInt8) (cp : Option Nat) (hl : tp.length + 4 ≤ 16) :
    pton6Loop (dottedQuad a b c d) tp cp (dottedQuad a b c d) 0 0 = pton6Finish (tp ++ [a, b, c, d]) cp 0 0 := by
  rw [p6_quad a b c d tp cp (by omega), finish_val]

theorem p6_groups4_end {t f : List UInt8} (h : Groups4 t f) (tp : List UInt8) (cp : Option Nat) (hl : tp.length + f.length ≤ 16) :
    pton6Loop t tp cp t 0 0 = pton6Finish (tp ++ f) cp 0 0 := by
  cases h with
  | groups h => exact p6_groups_end h tp cp hl
  | quad => exact p6_quad_end _ _ _ _ tp cp hl
  | both h =>
    rw [p6_groups_colon h _ _ _ (quad_ne_nil _ _ _ _) (by simp at hl; omega), p6_quad_end _ _ _ _ _ _ (by simp at hl ⊢; omega)]
    simp

theorem p6_rest {x f : List UInt8} (h : Rest6 x f) (tp : List UInt8) (cp : Option Nat) (hl : tp.length + f.length ≤ 16) :
    pton6Loop x tp cp x 0 0 = pton6Finish (tp ++ f) cp 0 0 := by
  rcases h with ⟨rfl, rfl⟩ | h
  · simp [pton6Loop]
  · exact p6_groups4_end h tp cp hl

theorem p6_dcolon' (x tp : List UInt8) : pton6Loop (58 :: x) tp none (58 :: x) 0 0 = pton6Loop x tp (some tp.length) x 0 0 := by
  rw [pton6Loop.eq_def]
  have : hexDigitValue 58 = none := by decide
  simp only [this, if_true]

theorem groups_head {t f : List UInt8} (h : Groups t f) : t.head? ≠ some 58 := by
  have key : ∀ g x : List UInt8, Group g → (g ++ x).head? ≠ some 58 := by
    intro g x hg he
    cases g with
    | nil => simp [Group] at hg
    | cons c g =>
      simp only [List.cons_append, List.head?_cons, Option.some.injEq] at he
      exact hg.2.2 c (by simp) (by rw [he]; decide)
  cases h with
  | one hg => simpa using key _ [] hg
  | cons hg _ => exact key _ _ hg

theorem quad_head (a b c d : UInt8) (x : List UInt8) : (dottedQuad a b c d ++ x).head? ≠ some 58 := by
  intro h
  have hd := (decText_isDecimal a.toNat)
  unfold dottedQuad at h
  simp only [List.append_assoc] at h
  cases ha : decText a.toNat with
  | nil => exact hd.1 ha
  | cons y ys =>
    rw [ha] at h
    simp only [List.cons_append, List.head?_cons, Option.some.injEq] at h
    have := hd.2.1 y (by rw [ha]; simp)
    rw [h] at this
    revert this
    unfold IsDigit
    decide

theorem groups4_head {t f : List UInt8} (h : Groups4 t f) : t.head? ≠ some 58 := by
  cases h with
  | groups h => exact groups_head h
  | quad => simpa using quad_head _ _ _ _ []
  | both h =>
    have h1 := groups_head h
    have h2 := groups_ne_nil h
    rename_i t f a b c d
    cases t with
    | nil => exact absurd rfl h2
    | cons y ys => simpa using h1

theorem inetPton6_iff (s r : List UInt8) : inetPton6 s = some r ↔ Ip6Reads s r := by
  constructor
  · intro h
    have hshort : ∀ (l lf x f : List UInt8), ((l = [] ∧ lf = []) ∨ Groups l lf) → Rest6 x f → lf.length + f.length ≤ 16 →
        pton6Finish (lf ++ f) (some lf.length) 0 0 = some r → Ip6Reads (l ++ [58, 58] ++ x) r := by
      intro l lf x f h1 h2 h3 h4
      unfold pton6Finish at h4
      rw [if_neg (by omega)] at h4
      simp only [if_neg (Nat.lt_irrefl 0)] at h4
      split at h4
      · cases h4
      · rename_i hne
        simp only [Option.some.injEq] at h4
        have := Ip6Reads.short h1 h2 (by simp at hne; omega)
        rw [← h4]
        simpa [Nat.sub_sub] using this
    unfold inetPton6 at h
    cases s with
    | nil => cases h
    | cons c cs =>
      simp only at h
      by_cases hc : c = 58
      · subst hc
        rw [if_pos rfl] at h
        cases cs with
        | nil => cases h
        | cons d ds =>
          by_cases hd : d = 58
          · subst hd
            simp only at h
            have := p6_sound _ (58 :: ds) [] none r (Nat.le_refl _) (by simp) h
            rcases this with ⟨f, e1, -⟩ | ⟨e, -⟩ | ⟨-, l, lf, x, f, e1, e2, e3, e4⟩
            · exact absurd rfl (groups4_head e1)
            · cases e
            · rcases e1 with ⟨rfl, rfl, e⟩ | ⟨e1, e⟩
              · simp only [List.cons.injEq, true_and] at e
                subst e
                exact hshort [] [] ds f (Or.inl ⟨rfl, rfl⟩) e2 (by simpa using e3) (by simpa using e4)
              · have h1 := groups_head e1
                have h2 := groups_ne_nil e1
                cases l with
                | nil => exact absurd rfl h2
                | cons y ys =>
                  simp only [List.cons_append, List.cons.injEq] at e
                  rw [← e.1] at h1
                  exact absurd rfl h1
          · split at h
            · rename_i he; simp at he; exact absurd he.1 hd
            · cases h
      · rw [if_neg hc] at h
        have := p6_sound _ (c :: cs) [] none r (Nat.le_refl _) (by simp) h
        rcases this with ⟨f, e1, e2, e3⟩ | ⟨e, -⟩ | ⟨-, l, lf, x, f, e1, e2, e3, e4⟩
        · unfold pton6Finish at e3
          simp only [List.nil_append, Nat.lt_irrefl, gt_iff_lt, false_and, if_false] at e3
          split at e3
          · simp only [Option.some.injEq] at e3
            subst e3
            exact .full e1 (by assumption)
          · cases e3
        · cases e
        · rcases e1 with ⟨-, -, e⟩ | ⟨e1, e⟩
          · simp only [List.cons.injEq] at e
            exact absurd e.1 hc
          · rw [e]
            have := hshort l lf x f (Or.inr e1) e2 (by simpa using e3) (by simpa using e4)
            simpa using this
  · intro h
    have start : ∀ (c : UInt8) (cs : List UInt8), c ≠ 58 → inetPton6 (c :: cs) = pton6Loop (c :: cs) [] none (c :: cs) 0 0 := by
      intro c cs hc
      unfold inetPton6
      simp only
      rw [if_neg hc]
    cases h with
    | full h hl =>
      have h1 := groups4_head h
      have h2 := groups4_ne_nil h
      cases s with
      | nil => exact absurd rfl h2
      | cons c cs =>
        rw [start c cs (by simpa using h1), p6_groups4_end h [] none (by simp; omega)]
        unfold pton6Finish
        simp [hl]
    | @short l lf x f h1 h2 hl =>
      have fin : pton6Finish (lf ++ f) (some lf.length) 0 0 = some (lf ++ List.replicate (16 - lf.length - f.length) 0 ++ f) := by
        unfold pton6Finish
        simp only [Nat.lt_irrefl, gt_iff_lt, false_and, if_false]
        rw [if_neg (by simp; omega)]
        simp [Nat.sub_sub]
      rcases h1 with ⟨rfl, rfl⟩ | h1
      · have : inetPton6 ([] ++ [58, 58] ++ x) = pton6Loop (58 :: x) [] none (58 :: x) 0 0 := rfl
        rw [this, p6_dcolon', p6_rest h2 [] _ (by simp at hl ⊢; omega)]
        exact fin
      · have g1 := groups_head h1
        have g2 := groups_ne_nil h1
        have : inetPton6 (l ++ [58, 58] ++ x) = pton6Loop (l ++ 58 :: (58 :: x)) [] none (l ++ 58 :: (58 :: x)) 0 0 := by
          cases l with
          | nil => exact absurd rfl g2
          | cons c cs => rw [List.cons_append, List.cons_append, start _ _ (by simpa using g1)]; simp
        rw [this, p6_groups_colon h1 _ _ _ (by simp) (by simp; omega), p6_dcolon', p6_rest h2 _ _ (by simp; omega)]
        simpa using fin

end Wdns
