import Verif.Spec.RenderSafe
import Verif.Lemmas.TextEnd
import Verif.Lemmas.EdnsText
import Verif.Lemmas.RoundTrip

/-! # Lemmas: the rdata printer on arbitrary octets -/

namespace Wdns
open Outcome Spec

/-- Text that a marker cannot be confused with: no NUL, does not end with `#` nor with `#` and a space. -/
def Good (t : List UInt8) : Prop := (0 : UInt8) ∉ t ∧ EndOK t ∧ EndOK (stripLast 32 t)

instance : DecidablePred Good := fun t => by unfold Good; infer_instance

theorem stripLast_app (c : UInt8) (a : List UInt8) {b : List UInt8} (h : b ≠ []) :
    stripLast c (a ++ b) = a ++ stripLast c b := by
  unfold stripLast
  rw [List.getLast?_append]
  obtain ⟨x, hx⟩ : ∃ x, b.getLast? = some x := by
    cases hb : b.getLast? with
    | none => exact absurd (List.getLast?_eq_none_iff.mp hb) h
    | some x => exact ⟨x, rfl⟩
  rw [hx]
  simp only [Option.some_or, Option.some.injEq]
  by_cases hc : x = c
  · rw [if_pos hc, if_pos hc, List.dropLast_append_of_ne_nil h]
  · rw [if_neg hc, if_neg hc]

theorem Good.append {a b : List UInt8} (ha : Good a) (hb : Good b) : Good (a ++ b) := by
  refine ⟨by simp [ha.1, hb.1], ha.2.1.append hb.2.1, ?_⟩
  by_cases h : b = []
  · subst h; rw [List.append_nil]; exact ha.2.2
  · rw [stripLast_app _ _ h]; exact ha.2.1.append hb.2.2

theorem Good.nil : Good [] := by decide

theorem stripLast_of {c : UInt8} {t : List UInt8} (h : c ∉ t) : stripLast c t = t := by
  unfold stripLast
  rw [if_neg]
  intro hl
  exact h (List.mem_of_getLast? hl)

theorem good_plain {t : List UInt8} (h : Plain t) : Good t := by
  have h32 : (32 : UInt8) ∉ t := fun hm => absurd (h 32 hm).1 (by decide)
  refine ⟨fun hm => absurd (h 0 hm).1 (by decide), .plain h, ?_⟩
  rw [stripLast_of h32]
  exact .plain h

theorem good_sp {t : List UInt8} (h0 : (0 : UInt8) ∉ t) (h : EndOK t) : Good (t ++ [32]) := by
  refine ⟨by simp [h0], .snoc (by decide), ?_⟩
  unfold stripLast
  simpa using h

theorem Good.clean {t : List UInt8} (h : Good t) : Clean t := fun hl => h.1 (List.mem_of_getLast? hl)

theorem printable_noNul {t : List UInt8} (h : Printable t) : (0 : UInt8) ∉ t := fun hm => absurd (h 0 hm).1 (by decide)

theorem good_quoted (s : List UInt8) : Good (quoted s ++ [32]) :=
  good_sp (printable_noNul (printable_quoted s)) (.quoted s)

theorem good_tok {t : List UInt8} (h : Plain t) : Good (t ++ [32]) := (good_plain h).append (by decide)

/-! ## SvcParams -/

theorem svcMandatory_tri : ∀ (v u : List UInt8), Good u →
    (v.length % 2 = 0 ∧ ∃ u', svcMandatory v u = (u', .success) ∧ Good u') ∨
    (v.length % 2 ≠ 0 ∧ ∃ u', svcMandatory v u = (u', .parseError))
  | [], u, hu => Or.inl ⟨rfl, u, rfl, hu⟩
  | [a], u, hu => Or.inr ⟨by simp, u, rfl⟩
  | a :: b :: rest, u, hu => by
    have h1 : Good (uAddCstr u (svcparamkeyToStr (be16 a b)) ++ [if rest = [] then 32 else 44]) := by
      rw [uAddCstr_clean hu.clean, keyText_eq]
      refine (hu.append ?_).append (by split <;> decide)
      split
      · decide
      · exact good_plain (plain_keyText _)
    rcases svcMandatory_tri rest _ h1 with ⟨e, h⟩ | ⟨e, h⟩
    · exact Or.inl ⟨by simp only [List.length_cons]; omega, h⟩
    · exact Or.inr ⟨by simp only [List.length_cons]; omega, h⟩

theorem svcIp4_tri (fuel : Nat) : ∀ (v u : List UInt8), v.length < fuel → Good u →
    (v.length % 4 = 0 ∧ ∃ u', svcIp4 fuel v u = ok (u', .success) ∧ Good u') ∨
    (v.length % 4 ≠ 0 ∧ ∃ u', svcIp4 fuel v u = ok (u', .parseError)) := by
  induction fuel with
  | zero => intro v u h; omega
  | succ fuel ih =>
    intro v u hf hu
    rw [svcIp4]
    by_cases h0 : v = []
    · rw [if_pos h0]; exact Or.inl ⟨by simp [h0], u, rfl, hu⟩
    · rw [if_neg h0]
      have hpos : 0 < v.length := List.length_pos_iff.mpr h0
      by_cases h4 : v.length < 4
      · rw [if_pos h4]; exact Or.inr ⟨by omega, u, rfl⟩
      · rw [if_neg h4, inet4Ntop_quad (by omega) (by omega)]
        simp only [ok_bind]
        have h1 : Good (uAddCstr u (quadText (v.take 4)) ++ [if v.drop 4 = [] then 32 else 44]) := by
          rw [uAddCstr_clean hu.clean]
          exact (hu.append (good_plain (plain_dottedQuad _ _ _ _))).append (by split <;> decide)
        rcases ih (v.drop 4) _ (by simp; omega) h1 with ⟨e, h⟩ | ⟨e, h⟩
        · exact Or.inl ⟨by rw [List.length_drop] at e; omega, h⟩
        · exact Or.inr ⟨by rw [List.length_drop] at e; omega, h⟩

theorem svcIp6_tri (fuel : Nat) : ∀ (v u : List UInt8), v.length < fuel → Good u →
    (v.length % 16 = 0 ∧ ∃ u', svcIp6 fuel v u = ok (u', .success) ∧ Good u') ∨
    (v.length % 16 ≠ 0 ∧ ∃ u', svcIp6 fuel v u = ok (u', .parseError)) := by
  induction fuel with
  | zero => intro v u h; omega
  | succ fuel ih =>
    intro v u hf hu
    rw [svcIp6]
    by_cases h0 : v = []
    · rw [if_pos h0]; exact Or.inl ⟨by simp [h0], u, rfl, hu⟩
    · rw [if_neg h0]
      have hpos : 0 < v.length := List.length_pos_iff.mpr h0
      by_cases h4 : v.length < 16
      · rw [if_pos h4]; exact Or.inr ⟨by omega, u, rfl⟩
      · rw [if_neg h4, inet6Ntop_ip6 (by omega) (by omega)]
        simp only [ok_bind]
        have h1 : Good (uAddCstr u (ip6Text (v.take 16)) ++ [if v.drop 16 = [] then 32 else 44]) := by
          rw [uAddCstr_clean hu.clean]
          exact (hu.append (good_plain (plain_ip6Text _))).append (by split <;> decide)
        rcases ih (v.drop 16) _ (by simp; omega) h1 with ⟨e, h⟩ | ⟨e, h⟩
        · exact Or.inl ⟨by rw [List.length_drop] at e; omega, h⟩
        · exact Or.inr ⟨by rw [List.length_drop] at e; omega, h⟩

theorem strings_cons {l : UInt8} {v : List UInt8} :
    Strings (l :: v) ↔ l.toNat ≤ v.length ∧ Strings (v.drop l.toNat) := by
  constructor
  · intro h
    cases h with
    | cons h1 h2 => rw [← h1]; exact ⟨by simp, by simpa using h2⟩
  · rintro ⟨h1, h2⟩
    have := Strings.cons (l := l) (s := v.take l.toNat) (by simp; omega) h2
    rwa [List.take_append_drop] at this

theorem good_seg {a : List UInt8} {c : UInt8} (h0 : (0 : UInt8) ∉ a) (hc : c ≠ 0 ∧ c ≠ 32 ∧ c ≠ 35) : Good (a ++ [c]) := by
  refine ⟨by simp [h0, Ne.symm hc.1], .snoc hc.2.2, ?_⟩
  unfold stripLast
  rw [if_neg (by simp [hc.2.1])]
  exact .snoc hc.2.2

/-- The alpn loop: `u` ends in a character that is neither a space nor `#`. -/
theorem svcAlpn_tri (fuel : Nat) : ∀ (v u : List UInt8), v.length < fuel → Good u →
    (Strings v ∧ ∃ u', svcAlpn fuel v u = ok (u', .success) ∧ Good u') ∨
    (¬ Strings v ∧ ∃ u', svcAlpn fuel v u = ok (u', .parseError)) := by
  induction fuel with
  | zero => intro v u h; omega
  | succ fuel ih =>
    intro v u hf hu
    rw [svcAlpn.eq_def]
    cases v with
    | nil => exact Or.inl ⟨.nil, u, rfl, hu⟩
    | cons l v =>
      simp only
      rw [strings_cons]
      by_cases hl : v.length < l.toNat
      · rw [if_pos hl]; exact Or.inr ⟨fun h => by omega, u, rfl⟩
      · rw [if_neg hl, alpnId_eq, ok_bind]
        have h1 : Good (u ++ (listItem (v.take l.toNat)).flatMap charText ++ [if v.drop l.toNat = [] then 34 else 44]) := by
          refine good_seg ?_ (by split <;> decide)
          have := printable_noNul (printable_chars (listItem (v.take l.toNat)))
          simp only [List.mem_append, hu.1, this, or_self, not_false_eq_true]
        rcases ih (v.drop l.toNat) _ (by simp at hf ⊢; omega) h1 with ⟨e, h⟩ | ⟨e, h⟩
        · exact Or.inl ⟨⟨by omega, e⟩, h⟩
        · exact Or.inr ⟨fun h => e h.2, h⟩

theorem svcparamToStr_tri {k : Nat} {v u : List UInt8} (hk : k ≠ 65535) (hu : Good u) :
    (SvcShown k v ∧ ∃ u', svcparamToStr k v u = ok (u', .success) ∧ Good u') ∨
    (¬ SvcShown k v ∧ ∃ u', svcparamToStr k v u = ok (u', .parseError)) := by
  unfold svcparamToStr
  rw [if_neg hk]
  by_cases h0 : k = 0
  · subst h0
    rw [if_pos rfl]
    rcases svcMandatory_tri v u hu with ⟨e, u', h, g⟩ | ⟨e, u', h⟩
    · exact Or.inl ⟨e, u', by rw [h], g⟩
    · exact Or.inr ⟨e, u', by rw [h]⟩
  rw [if_neg h0]
  by_cases h2 : k = 2
  · subst h2
    rw [if_pos rfl]
    by_cases hv : v = []
    · rw [if_neg (by simpa using hv)]; exact Or.inl ⟨hv, _, rfl, hu.append (by decide)⟩
    · rw [if_pos hv]; exact Or.inr ⟨hv, _, rfl⟩
  rw [if_neg h2]
  by_cases h3 : k = 3
  · subst h3
    rw [if_pos rfl]
    match v with
    | [] => exact Or.inr ⟨by simp [SvcShown], _, rfl⟩
    | [a] => exact Or.inr ⟨by simp [SvcShown], _, rfl⟩
    | a :: b :: c :: r => exact Or.inr ⟨by simp [SvcShown], _, rfl⟩
    | [a, b] =>
      simp only
      rw [decStr_eq (by omega) (by have := be16_lt a b; omega), ok_bind]
      exact Or.inl ⟨rfl, _, rfl, (hu.append (good_plain (plain_decText _))).append (by decide)⟩
  rw [if_neg h3]
  by_cases h5 : k = 5
  · subst h5
    rw [if_pos rfl, bytesToBase64_eq, ok_bind]
    exact Or.inl ⟨trivial, _, rfl, (hu.append (good_plain (plain_base64 _))).append (by decide)⟩
  rw [if_neg h5]
  by_cases h4 : k = 4
  · subst h4; rw [if_pos rfl]; exact svcIp4_tri _ v u (by omega) hu
  rw [if_neg h4]
  by_cases h6 : k = 6
  · subst h6; rw [if_pos rfl]; exact svcIp6_tri _ v u (by omega) hu
  rw [if_neg h6]
  by_cases h1 : k = 1
  · subst h1
    rw [if_pos rfl]
    rcases svcAlpn_tri (v.length + 1) v (u ++ [34]) (by omega) (hu.append (by decide)) with ⟨e, u', h, g⟩ | ⟨e, u', h⟩
    · refine Or.inl ⟨e, u' ++ [32], ?_, g.append (by decide)⟩
      rw [h, ok_bind]; rfl
    · refine Or.inr ⟨e, u', ?_⟩
      rw [h, ok_bind]; rfl
  rw [if_neg h1, strQuoted_eq, ok_bind]
  refine Or.inl ⟨?_, _, rfl, hu.append (good_quoted v)⟩
  unfold SvcShown
  split <;> first | trivial | omega | (exfalso; simp at *)

/-! ## Loops that take the rest of the rdata -/

/-- The walk either finishes at the end of the rdata, or reports malformed rdata. -/
def Verdict (good : Prop) (o : Outcome TRes) : Prop :=
  (good ∧ ∃ src' u', o = ok (.go ⟨src', 0, u'⟩) ∧ Good u') ∨ (¬ good ∧ ∃ r u', o = ok (.bad r u'))

theorem Verdict.congr {p q : Prop} {o : Outcome TRes} (h : Verdict p o) (e : p ↔ q) : Verdict q o := by rwa [← e]

theorem split_at_len {w : List UInt8} {n : Nat} (h : n ≤ w.length) : ∃ a b, w = a ++ b ∧ a.length = n :=
  ⟨w.take n, w.drop n, (List.take_append_drop _ _).symm, by simp; omega⟩

theorem short_cases {w : List UInt8} (h : ¬ 4 ≤ w.length) : w = [] ∨ (∃ a, w = [a]) ∨ (∃ a b, w = [a, b]) ∨ ∃ a b c, w = [a, b, c] := by
  match w, h with
  | [], _ => exact Or.inl rfl
  | [a], _ => exact Or.inr (Or.inl ⟨a, rfl⟩)
  | [a, b], _ => exact Or.inr (Or.inr (Or.inl ⟨a, b, rfl⟩))
  | [a, b, c], _ => exact Or.inr (Or.inr (Or.inr ⟨a, b, c, rfl⟩))
  | a :: b :: c :: d :: r, h => simp at h

theorem paramsShown_cons {k0 k1 l0 l1 : UInt8} {v rest : List UInt8} (hv : v.length = be16 l0 l1) :
    ParamsShown (k0 :: k1 :: l0 :: l1 :: (v ++ rest)) ↔ SvcShown (be16 k0 k1) v ∧ ParamsShown rest := by
  constructor
  · intro h
    generalize hx : k0 :: k1 :: l0 :: l1 :: (v ++ rest) = x at h
    cases h with
    | nil => simp at hx
    | @cons _ _ _ _ v' rest' h1 h2 h3 =>
      simp only [List.cons.injEq] at hx
      obtain ⟨rfl, rfl, rfl, rfl, hx⟩ := hx
      obtain ⟨rfl, rfl⟩ := List.append_inj hx (by omega)
      exact ⟨h2, h3⟩
  · rintro ⟨h1, h2⟩; exact .cons hv h1 h2

theorem paramsShown_short {w : List UInt8} (h : ParamsShown w) (hne : w ≠ []) :
    ∃ k0 k1 l0 l1 v rest, w = k0 :: k1 :: l0 :: l1 :: (v ++ rest) ∧ v.length = be16 l0 l1 ∧ SvcShown (be16 k0 k1) v := by
  cases h with
  | nil => exact absurd rfl hne
  | cons h1 h2 h3 => exact ⟨_, _, _, _, _, _, rfl, h1, h2⟩

theorem tSvcparams_verdict {mem : List UInt8} (fuel : Nat) : ∀ (w : List UInt8) (src : Nat) (u : List UInt8), Win mem src w →
    w.length < fuel → Good u → Verdict (ParamsShown w) (tSvcparams mem fuel ⟨src, w.length, u⟩) := by
  induction fuel with
  | zero => intro w src u _ h; omega
  | succ fuel ih =>
    intro w src u hw hf hu
    rw [tSvcparams]
    by_cases hne : w = []
    · subst hne
      rw [if_neg (by simp)]
      exact Or.inl ⟨.nil, _, _, rfl, hu⟩
    have hpos : 0 < w.length := List.length_pos_iff.mpr hne
    rw [if_pos (by simp only; omega)]
    simp only [need]
    by_cases h2 : w.length < 2
    · rw [if_pos (by omega)]
      refine Or.inr ⟨fun h => ?_, _, _, rfl⟩
      obtain ⟨_, _, _, _, _, _, rfl, _, _⟩ := paramsShown_short h hne
      simp at h2; omega
    rw [if_neg (by omega)]
    obtain ⟨k0, k1, w1, rfl⟩ := two_of (show 2 ≤ w.length by omega)
    have hw1 := hw.tail.tail
    simp only [hw.rd, hw.tail.rd, ok_bind]
    by_cases hk : be16 k0 k1 = 65535
    · rw [if_pos hk]
      refine Or.inr ⟨fun h => ?_, _, _, rfl⟩
      obtain ⟨_, _, _, _, _, _, hx, _, h⟩ := paramsShown_short h hne
      simp only [List.cons.injEq] at hx
      obtain ⟨rfl, rfl, _⟩ := hx
      rw [hk] at h
      exact h
    rw [if_neg hk]
    by_cases h3 : w1.length < 2
    · rw [if_pos (by simp only [List.length_cons]; omega)]
      refine Or.inr ⟨fun h => ?_, _, _, rfl⟩
      obtain ⟨_, _, _, _, _, _, hx, _, _⟩ := paramsShown_short h hne
      simp only [List.cons.injEq] at hx
      rw [hx.2.2] at h3
      simp at h3; omega
    rw [if_neg (by simp only [List.length_cons]; omega)]
    obtain ⟨l0, l1, w2, rfl⟩ := two_of (show 2 ≤ w1.length by omega)
    have hw2 := hw1.tail.tail
    rw [show src + 2 = src + 1 + 1 from rfl]
    simp only [hw1.rd, hw1.tail.rd, ok_bind]
    by_cases h4 : w2.length < be16 l0 l1
    · rw [if_pos (by simp only [List.length_cons]; omega)]
      refine Or.inr ⟨fun h => ?_, _, _, rfl⟩
      obtain ⟨_, _, _, _, _, _, hx, h, _⟩ := paramsShown_short h hne
      simp only [List.cons.injEq] at hx
      obtain ⟨rfl, rfl, rfl, rfl, hx⟩ := hx
      rw [hx] at h4
      simp at h4; omega
    rw [if_neg (by simp only [List.length_cons]; omega)]
    obtain ⟨v, rest, rfl, hv⟩ := split_at_len (show be16 l0 l1 ≤ w2.length by omega)
    rw [show src + 1 + 1 + 2 = src + 1 + 1 + 1 + 1 from rfl]
    simp only [hw2.left.rdN hv.symm, ok_bind]
    have hgu : Good (uAddCstr u (svcparamkeyToStr (be16 k0 k1) ++ if be16 k0 k1 ≠ 2 then [61] else [])) := by
      rw [uAddCstr_clean hu.clean, keyText_eq, if_neg hk]
      exact hu.append ((good_plain (plain_keyText _)).append (by split <;> decide))
    refine Verdict.congr ?_ (paramsShown_cons hv).symm
    rcases svcparamToStr_tri (v := v) hk hgu with ⟨e, u', h, g⟩ | ⟨e, u', h⟩
    · rw [h, ok_bind]
      simp only [ne_eq, not_true_eq_false, if_false]
      have hb : ((k0 :: k1 :: l0 :: l1 :: (v ++ rest)).length : Int) - 2 - 2 - (be16 l0 l1 : Nat) = rest.length := by
        simp only [List.length_cons, List.length_append]; omega
      rw [hb, ← hv]
      refine (ih rest _ u' hw2.right (by simp at hf; omega) g).congr ?_
      simp [e]
    · rw [h, ok_bind]
      simp only [ne_eq, reduceCtorEq, not_false_eq_true, if_true]
      exact Or.inr ⟨fun h => e h.1, _, _, rfl⟩

theorem optShown_iff (code : Nat) (v : List UInt8) : OptShown code v ↔ (optText code v).isSome = true := by
  unfold OptShown optText
  by_cases h8 : code = 8
  · rw [if_pos h8, if_pos h8]
    unfold subnetText
    match v with
    | f0 :: f1 :: source :: scope :: addr =>
      simp only
      constructor
      · rintro ⟨_, _, _, _, _, hx, h⟩
        simp only [List.cons.injEq] at hx
        obtain ⟨rfl, rfl, rfl, rfl, rfl⟩ := hx
        rcases h with h | h
        · rw [if_pos h]; rfl
        · rw [if_neg (by omega), if_pos h]; rfl
      · intro h
        refine ⟨f0, f1, source, scope, addr, rfl, ?_⟩
        split at h
        · exact Or.inl ‹_›
        · split at h
          · exact Or.inr ‹_›
          · simp at h
    | [] => simp
    | [_] => simp
    | [_, _] => simp
    | [_, _, _] => simp
  · rw [if_neg h8, if_neg h8]
    by_cases h15 : code = 15
    · rw [if_pos h15, if_pos h15]
      unfold edeText
      match v with
      | a :: b :: r => simp
      | [] => simp
      | [_] => simp
    · rw [if_neg h15, if_neg h15]; simp

theorem optsShown_cons {k0 k1 l0 l1 : UInt8} {v rest : List UInt8} (hv : v.length = be16 l0 l1) :
    OptsShown (k0 :: k1 :: l0 :: l1 :: (v ++ rest)) ↔ OptShown (be16 k0 k1) v ∧ OptsShown rest := by
  constructor
  · intro h
    generalize hx : k0 :: k1 :: l0 :: l1 :: (v ++ rest) = x at h
    cases h with
    | nil => simp at hx
    | @cons _ _ _ _ v' rest' h1 h2 h3 =>
      simp only [List.cons.injEq] at hx
      obtain ⟨rfl, rfl, rfl, rfl, hx⟩ := hx
      obtain ⟨rfl, rfl⟩ := List.append_inj hx (by omega)
      exact ⟨h2, h3⟩
  · rintro ⟨h1, h2⟩; exact .cons hv h1 h2

theorem optsShown_short {w : List UInt8} (h : OptsShown w) (hne : w ≠ []) :
    ∃ k0 k1 l0 l1 v rest, w = k0 :: k1 :: l0 :: l1 :: (v ++ rest) ∧ v.length = be16 l0 l1 := by
  cases h with
  | nil => exact absurd rfl hne
  | cons h1 h2 h3 => exact ⟨_, _, _, _, _, _, rfl, h1⟩

theorem good_optLabel (code : Nat) : Good (optLabel code) := by
  unfold optLabel
  split
  · decide
  · split
    · decide
    · exact ((show Good (ascii "OPT=") by decide).append (good_plain (plain_decText _))).append (by decide)

theorem good_optText {code : Nat} {data t : List UInt8} (h : optText code data = some t) : Good t := by
  have hp := printable_noNul (printable_optText h).1
  have hdot : ∀ x : List UInt8, EndOK (x ++ [41]) := fun x => .snoc (by decide)
  have hpar : ∀ x : List UInt8, (0 : UInt8) ∉ x ++ [41] → Good (x ++ [41]) := by
    intro x hx
    exact good_seg (fun hm => hx (by simp [hm])) (by decide)
  unfold optText at h
  split at h
  · unfold subnetText at h
    split at h
    · simp only at h
      split at h
      · simp only [Option.some.injEq] at h; subst h
        refine (good_plain (plain_dottedQuad _ _ _ _)).append ?_
        exact (((show Good (ascii "/") by decide).append (good_plain (plain_decText _))).append (by decide)).append
          (good_plain (plain_decText _))
      · split at h
        · simp only [Option.some.injEq] at h; subst h
          refine (good_plain (plain_ip6Text _)).append ?_
          exact (((show Good (ascii "/") by decide).append (good_plain (plain_decText _))).append (by decide)).append
            (good_plain (plain_decText _))
        · simp at h
    · simp at h
  · split at h
    · unfold edeText at h
      split at h
      · simp only [Option.some.injEq] at h; subst h
        rw [show ascii ")" = [41] from by decide] at *
        exact hpar _ hp
      · simp at h
    · simp only [Option.some.injEq] at h; subst h
      unfold otherOptText at hp ⊢
      rw [show ascii "\")" = [34] ++ [41] from by decide, ← List.append_assoc] at *
      exact hpar _ hp

theorem tEdns_verdict {mem : List UInt8} (fuel : Nat) : ∀ (w : List UInt8) (src : Nat) (u : List UInt8), Win mem src w →
    w.length < fuel → Good u → Verdict (OptsShown w) (tEdns mem fuel ⟨src, w.length, u⟩) := by
  induction fuel with
  | zero => intro w src u _ h; omega
  | succ fuel ih =>
    intro w src u hw hf hu
    rw [tEdns]
    by_cases hne : w = []
    · subst hne
      rw [if_neg (by simp)]
      exact Or.inl ⟨.nil, _, _, rfl, hu⟩
    have hpos : 0 < w.length := List.length_pos_iff.mpr hne
    rw [if_pos (by simp only; omega)]
    simp only [need]
    by_cases h2 : w.length < 2
    · rw [if_pos (by omega)]
      refine Or.inr ⟨fun h => ?_, _, _, rfl⟩
      obtain ⟨_, _, _, _, _, _, rfl, _⟩ := optsShown_short h hne
      simp at h2; omega
    rw [if_neg (by omega)]
    obtain ⟨k0, k1, w1, rfl⟩ := two_of (show 2 ≤ w.length by omega)
    have hw1 := hw.tail.tail
    simp only [hw.rd, hw.tail.rd, ok_bind]
    by_cases h3 : w1.length < 2
    · rw [if_pos (by simp only [List.length_cons]; omega)]
      refine Or.inr ⟨fun h => ?_, _, _, rfl⟩
      obtain ⟨_, _, _, _, _, _, hx, _⟩ := optsShown_short h hne
      simp only [List.cons.injEq] at hx
      rw [hx.2.2] at h3
      simp at h3; omega
    rw [if_neg (by simp only [List.length_cons]; omega)]
    obtain ⟨l0, l1, w2, rfl⟩ := two_of (show 2 ≤ w1.length by omega)
    have hw2 := hw1.tail.tail
    rw [show src + 2 = src + 1 + 1 from rfl]
    simp only [hw1.rd, hw1.tail.rd, ok_bind]
    by_cases h4 : w2.length < be16 l0 l1
    · rw [if_pos (by simp only [List.length_cons]; omega)]
      refine Or.inr ⟨fun h => ?_, _, _, rfl⟩
      obtain ⟨_, _, _, _, _, _, hx, h⟩ := optsShown_short h hne
      simp only [List.cons.injEq] at hx
      obtain ⟨rfl, rfl, rfl, rfl, hx⟩ := hx
      rw [hx] at h4
      simp at h4; omega
    rw [if_neg (by simp only [List.length_cons]; omega)]
    obtain ⟨v, rest, rfl, hv⟩ := split_at_len (show be16 l0 l1 ≤ w2.length by omega)
    rw [show src + 1 + 1 + 2 = src + 1 + 1 + 1 + 1 from rfl]
    simp only [hw2.left.rdN hv.symm, ok_bind]
    have hgu : Good (ednsCode u (be16 k0 k1)) := by
      rw [ednsCode_eq hu.clean]; exact hu.append (good_optLabel _)
    refine Verdict.congr ?_ (optsShown_cons hv).symm
    rw [ednsData_eq hgu.clean]
    cases ho : optText (be16 k0 k1) v with
    | none =>
      simp only [Option.elim, ok_bind, ne_eq, reduceCtorEq, not_false_eq_true, if_true]
      exact Or.inr ⟨fun h => by have := (optShown_iff _ _).mp h.1; rw [ho] at this; simp at this, _, _, rfl⟩
    | some t =>
      simp only [Option.elim, ok_bind, ne_eq, not_true_eq_false, if_false]
      have hb : ((k0 :: k1 :: l0 :: l1 :: (v ++ rest)).length : Int) - 2 - 2 - (be16 l0 l1 : Nat) = rest.length := by
        simp only [List.length_cons, List.length_append]; omega
      rw [hb, ← hv]
      have g1 : Good (ednsCode u (be16 k0 k1) ++ [32] ++ t) := (hgu.append (by decide)).append (good_optText ho)
      have g2 : Good (if (rest.length : Int) > 0 then ednsCode u (be16 k0 k1) ++ [32] ++ t ++ [10]
          else ednsCode u (be16 k0 k1) ++ [32] ++ t) := by
        split
        · exact g1.append (by decide)
        · exact g1
      refine (ih rest _ _ hw2.right (by simp at hf; omega) g2).congr ?_
      simp [(optShown_iff _ _).mpr (by rw [ho]; rfl)]

theorem tString_tri {mem : List UInt8} {src : Nat} {w u : List UInt8} (hw : Win mem src w) (hne : w ≠ []) (hu : Good u) :
    (∃ l s rest, w = l :: (s ++ rest) ∧ s.length = l.toNat ∧ tString mem ⟨src, w.length, u⟩ =
      ok (.go ⟨src + (s.length + 1), rest.length, u ++ (quoted s ++ [32])⟩)) ∨
    ((∀ l s rest, w = l :: (s ++ rest) → s.length ≠ l.toNat) ∧ ∃ r u', tString mem ⟨src, w.length, u⟩ = ok (.bad r u')) := by
  obtain ⟨l, v, rfl⟩ := List.exists_cons_of_ne_nil hne
  unfold tString need
  rw [if_neg (by simp only [List.length_cons]; omega)]
  simp only [hw.rd, ok_bind]
  by_cases h : v.length < l.toNat
  · rw [if_pos (by simp only [List.length_cons]; omega)]
    refine Or.inr ⟨fun l' s rest hx he => ?_, _, _, rfl⟩
    simp only [List.cons.injEq] at hx
    obtain ⟨rfl, rfl⟩ := hx
    simp at h; omega
  · rw [if_neg (by simp only [List.length_cons]; omega)]
    obtain ⟨s, rest, rfl, hs⟩ := split_at_len (show l.toNat ≤ v.length by omega)
    rw [hw.tail.left.rdN hs.symm, ok_bind, strQuoted_eq, ok_bind]
    refine Or.inl ⟨l, s, rest, rfl, hs, ?_⟩
    congr 3
    · omega
    · simp only [List.length_cons, List.length_append]; omega

theorem tRepstring_verdict {mem : List UInt8} (fuel : Nat) : ∀ (w : List UInt8) (src : Nat) (u : List UInt8), Win mem src w →
    w.length < fuel → Good u → Verdict (Strings w) (tRepstring mem fuel ⟨src, w.length, u⟩) := by
  induction fuel with
  | zero => intro w src u _ h; omega
  | succ fuel ih =>
    intro w src u hw hf hu
    rw [tRepstring]
    by_cases hne : w = []
    · subst hne
      rw [if_neg (by simp)]
      exact Or.inl ⟨.nil, _, _, rfl, hu⟩
    have hpos : 0 < w.length := List.length_pos_iff.mpr hne
    rw [if_pos (by simp only; omega)]
    rcases tString_tri hw hne hu with ⟨l, s, rest, rfl, hs, e⟩ | ⟨hn, r, u', e⟩
    · rw [e, ok_bind]
      have hr : Win mem (src + (s.length + 1)) rest := by
        have := hw.tail.right; rwa [show src + 1 + s.length = src + (s.length + 1) by omega] at this
      refine (ih rest _ _ hr (by simp at hf; omega) (hu.append (good_quoted s))).congr ?_
      rw [strings_cons, ← hs]
      simp
    · rw [e, ok_bind]
      refine Or.inr ⟨fun h => ?_, _, _, rfl⟩
      cases h with
      | nil => exact hne rfl
      | cons h1 h2 => exact hn _ _ _ rfl h1

theorem anyWindows_cons {a l : UInt8} {v : List UInt8} :
    AnyWindows (a :: l :: v) ↔ l.toNat ≤ v.length ∧ AnyWindows (v.drop l.toNat) := by
  constructor
  · intro h
    cases h with
    | cons h1 h2 => rw [← h1]; exact ⟨by simp, by simpa using h2⟩
  · rintro ⟨h1, h2⟩
    have := AnyWindows.cons (w := a) (l := l) (s := v.take l.toNat) (by simp; omega) h2
    rwa [List.take_append_drop] at this

theorem good_typeTok {u : List UInt8} (hu : Good u) (t : Nat) : Good (typeTok u t) := by
  rw [typeTok_eq hu.clean]
  exact hu.append (good_tok (plain_typeText t))

theorem good_tWindow (win : Nat) (as : List UInt8) : ∀ (lo : Nat) {u : List UInt8}, Good u → Good (tWindow win lo as u) := by
  induction as with
  | nil => intro lo u hu; exact hu
  | cons a as ih =>
    intro lo u hu
    rw [tWindow]
    apply ih
    generalize typesOfByte win lo a = l
    induction l generalizing u with
    | nil => exact hu
    | cons t l ih => exact ih (good_typeTok hu t)

theorem tBitmap_tri {mem : List UInt8} (fuel : Nat) : ∀ (w : List UInt8) (src : Nat) (u : List UInt8), Win mem src w →
    w.length < fuel → Good u →
    (∃ f rest u', w = f ++ rest ∧ AnyWindows f ∧ rest.length ≤ 1 ∧
      tBitmap mem fuel ⟨src, w.length, u⟩ = ok (.go ⟨src + f.length, rest.length, u'⟩) ∧ Good u') ∨
    ((∀ f rest, w = f ++ rest → AnyWindows f → ¬ rest.length ≤ 1) ∧ ∃ r u', tBitmap mem fuel ⟨src, w.length, u⟩ = ok (.bad r u')) := by
  induction fuel with
  | zero => intro w src u _ h; omega
  | succ fuel ih =>
    intro w src u hw hf hu
    rw [tBitmap]
    by_cases h2 : w.length < 2
    · rw [if_neg (by simp only; omega)]
      exact Or.inl ⟨[], w, u, rfl, .nil, by omega, rfl, hu⟩
    rw [if_pos (by simp only; omega)]
    obtain ⟨a, l, v, rfl⟩ := two_of (show 2 ≤ w.length by omega)
    simp only [hw.rd, hw.tail.rd, ok_bind, need]
    have inv : ∀ f rest, a :: l :: v = f ++ rest → AnyWindows f → rest.length ≤ 1 →
        ∃ s f', f = a :: l :: (s ++ f') ∧ s.length = l.toNat ∧ AnyWindows f' ∧ v = s ++ (f' ++ rest) := by
      intro f rest hx hf hr
      cases hf with
      | nil =>
        have := congrArg List.length hx
        simp at this; omega
      | @cons a' l' s f' h1 h3 =>
        simp only [List.cons_append, List.cons.injEq, List.append_assoc] at hx
        obtain ⟨rfl, rfl, hx⟩ := hx
        exact ⟨s, f', rfl, h1, h3, hx⟩
    by_cases h : v.length < l.toNat
    · rw [if_pos (by simp only [List.length_cons]; omega)]
      refine Or.inr ⟨fun f rest hx hf hr => ?_, _, _, rfl⟩
      obtain ⟨s, f', _, hs, _, rfl⟩ := inv f rest hx hf hr
      simp at h; omega
    rw [if_neg (by simp only [List.length_cons]; omega)]
    obtain ⟨s, rest, rfl, hs⟩ := split_at_len (show l.toNat ≤ v.length by omega)
    rw [show src + 2 = src + 1 + 1 from rfl, hw.tail.tail.left.rdN hs.symm, ok_bind]
    have hb : ((a :: l :: (s ++ rest)).length : Int) - 2 - (l.toNat : Nat) = rest.length := by
      simp only [List.length_cons, List.length_append]; omega
    simp only [hb]
    rw [← hs]
    rcases ih rest (src + 1 + 1 + s.length) _ hw.tail.tail.right (by simp at hf; omega) (good_tWindow a.toNat s 0 hu) with
      ⟨f, r, u', rfl, h1, h3, e, g⟩ | ⟨hn, r, u', e⟩
    · refine Or.inl ⟨a :: l :: (s ++ f), r, u', by simp, .cons hs h1, h3, ?_, g⟩
      rw [e]
      congr 3
      simp only [List.length_cons, List.length_append]; omega
    · refine Or.inr ⟨fun f r hx hf hr => ?_, _, _, e⟩
      obtain ⟨s', f', _, hs', h3, hv⟩ := inv f r hx hf hr
      obtain ⟨rfl, rfl⟩ := List.append_inj hv (by omega)
      exact hn f' r rfl h3 hr

/-! ## Names -/

theorem dtsInner_total {cap : Nat} {mem : List UInt8} : ∀ (l : Label) (src rem : Nat) (out : List UInt8),
    l <+: mem.drop src → l.length ≤ rem →
    dtsInner cap mem l.length src rem out = ub ∨ ∃ out', dtsInner cap mem l.length src rem out = ok (src + l.length, rem - l.length, out') := by
  intro l
  induction l with
  | nil => intro src rem out _ _; exact Or.inr ⟨out, by simp [dtsInner]⟩
  | cons c l ih =>
    intro src rem out hst hr
    rw [prefix_drop_cons] at hst
    simp only [List.length_cons] at hr ⊢
    rw [dtsInner, if_pos (by omega)]
    simp only [rd, hst.1, ok_bind]
    have step : ∀ out', dtsInner cap mem l.length (src + 1) (rem - 1) out' = ub ∨
        ∃ o, dtsInner cap mem l.length (src + 1) (rem - 1) out' = ok (src + (l.length + 1), rem - (l.length + 1), o) := by
      intro out'
      rcases ih (src + 1) (rem - 1) out' hst.2 (by omega) with h | ⟨o, h⟩
      · exact Or.inl h
      · refine Or.inr ⟨o, ?_⟩
        rw [h]
        congr 2
        · omega
        · congr 1; omega
    split
    · unfold wrN
      split
      · simp only [ok_bind]; exact step _
      · exact Or.inl rfl
    · split
      · unfold wr
        split
        · simp only [ok_bind]; exact step _
        · exact Or.inl rfl
      · split
        · exact step _
        · exact Or.inl rfl

theorem dtsOuter_hang {cap : Nat} {mem : List UInt8} : ∀ (n : Name) (src rem br fuel : Nat) (out : List UInt8) (oc : UInt8),
    n ≠ [] → (∀ l ∈ n, LabelOK l) → mem.drop src = labs n → (labs n).length < rem → n.length < fuel → mem[src]? = some oc →
    dtsOuter cap mem fuel src rem oc br out = ub := by
  intro n
  induction n with
  | nil => intro _ _ _ _ _ _ h; exact absurd rfl h
  | cons l n ih =>
    intro src rem br fuel out oc _ hok hm hr hf hoc
    obtain ⟨fuel, rfl⟩ : ∃ f, fuel = f + 1 := ⟨fuel - 1, by omega⟩
    have hl := hok l (by simp)
    have hlen := labs_cons_length l n
    have hoc' : oc = UInt8.ofNat l.length := by
      have : (mem.drop src)[0]? = some (UInt8.ofNat l.length) := by rw [hm]; rfl
      rw [List.getElem?_drop, Nat.add_zero, hoc] at this
      exact Option.some.inj this
    have h63 := hl.2
    have h1 := hl.1
    have hocn : oc.toNat = l.length := by rw [hoc', UInt8.toNat_ofNat']; omega
    have hd1 : mem.drop (src + 1) = l ++ labs n := by
      rw [← List.drop_drop, hm]; rfl
    rw [dtsOuter, if_pos ⟨by omega, by intro h; rw [h] at hocn; simp at hocn; omega⟩]
    simp only [hocn]
    rcases dtsInner_total (cap := cap) l (src + 1) (rem - 1) out (by rw [hd1]; exact List.prefix_append _ _) (by omega) with h | ⟨o, h⟩
    · rw [h]; rfl
    · rw [h, ok_bind]
      simp only
      have hd2 : mem.drop (src + 1 + l.length) = labs n := by
        rw [← List.drop_drop, hd1, List.drop_left]
      unfold wr
      split
      · simp only [ok_bind]
        cases n with
        | nil =>
          have : mem.length ≤ src + 1 + l.length := List.drop_eq_nil_iff.mp hd2
          rw [rd_ub.mpr this]; rfl
        | cons l2 n =>
          have hget : mem[src + 1 + l.length]? = some (UInt8.ofNat l2.length) := by
            have : (mem.drop (src + 1 + l.length))[0]? = some (UInt8.ofNat l2.length) := by rw [hd2]; rfl
            rwa [List.getElem?_drop, Nat.add_zero] at this
          rw [rd_ok.mpr hget, ok_bind]
          simp only [List.length_cons] at hf
          exact ih _ _ _ _ _ _ (by simp) (fun x hx => hok x (by simp [hx])) hd2 (by omega) (by simp only [List.length_cons]; omega) hget
      · rfl

theorem labs_length_ge (n : Name) : n.length ≤ (labs n).length := by
  induction n with
  | nil => simp
  | cons l n ih => rw [labs_cons_length]; simp only [List.length_cons]; omega

theorem hanging_iff {w : List UInt8} : Hanging w ↔ ∃ n : Name, n ≠ [] ∧ (∀ l ∈ n, LabelOK l) ∧ labs n = w ∧ w.length ≤ 254 := by
  unfold Hanging
  constructor
  · rintro ⟨n, h1, h2, h3, h4⟩
    rw [wire_eq_labs] at h3
    exact ⟨n, h1, h2, List.append_cancel_right h3, h4⟩
  · rintro ⟨n, h1, h2, h3, h4⟩
    exact ⟨n, h1, h2, by rw [wire_eq_labs, h3], h4⟩

theorem hanging_not_taken {w : List UInt8} (h : Hanging w) {n : Name} {rest : List UInt8} (hn : ∀ l ∈ n, LabelOK l) : w ≠ wire n ++ rest := by
  rintro rfl
  obtain ⟨m, _, h2, h3, _⟩ := h
  have := (wire_append_inj (a := []) h2 hn (by rw [List.append_nil, h3, List.append_assoc])).2
  simp at this

theorem lenLoop_labs {mem : List UInt8} : ∀ (n : Name) (fuel p len : Nat), len < fuel → p + len ≤ mem.length →
    (∀ l ∈ n, LabelOK l) → (mem.take (p + len)).drop p = labs n → lenLoop mem fuel p len = ok (2 ^ 32 - 1) := by
  intro n
  induction n with
  | nil =>
    intro fuel p len hf hm _ h
    obtain ⟨fuel, rfl⟩ : ∃ f, fuel = f + 1 := ⟨fuel - 1, by omega⟩
    have := congrArg List.length h
    simp [labs] at this
    rw [lenLoop, if_pos (by omega)]
  | cons l n ih =>
    intro fuel p len hf hm hok h
    obtain ⟨fuel, rfl⟩ : ∃ f, fuel = f + 1 := ⟨fuel - 1, by omega⟩
    have hlen := congrArg List.length h
    rw [labs_cons_length, List.length_drop, List.length_take] at hlen
    have hl := hok l (by simp)
    have hw : Win mem p (labs (l :: n)) := by
      rw [← h, List.drop_take, show p + len - p = len by omega]
      exact Win.mk' hm
    have hln : (UInt8.ofNat l.length).toNat = l.length := by
      have := hl.2
      rw [UInt8.toNat_ofNat']; omega
    have h1 := hl.1
    have h63 := hl.2
    have hd : (mem.take (p + 1 + l.length + (len - 1 - l.length))).drop (p + 1 + l.length) = labs n := by
      rw [show p + 1 + l.length + (len - 1 - l.length) = p + len by omega, ← List.drop_drop, ← List.drop_drop, h]
      simp [labs]
    rw [lenLoop, if_neg (by omega)]
    simp only [labs] at hw
    simp only [hw.rd, ok_bind, hln]
    rw [if_neg (by omega), if_neg (by intro h0; rw [h0] at hln; simp at hln; omega)]
    exact ih fuel _ _ (by omega) (by omega) (fun x hx => hok x (by simp [hx])) hd

/-- A name field on arbitrary octets. -/
theorem tField_name_tri {mem : List UInt8} {t : Rdf} {src : Nat} {w u : List UInt8} (ht : IsName t) (hw : Win mem src w) (hne : w ≠ [])
    (hlen : w.length < 65536) (hu : Good u) :
    (∃ n rest, w = wire n ++ rest ∧ WF n ∧
      tField mem t ⟨src, w.length, u⟩ = ok (.go ⟨src + (wire n).length, rest.length, u ++ (nameText n ++ [32])⟩)) ∨
    ((∀ n rest, w = wire n ++ rest → ¬ WF n) ∧ ¬ Hanging w ∧ ∃ r u', tField mem t ⟨src, w.length, u⟩ = ok (.bad r u')) ∨
    (Hanging w ∧ (src + w.length = mem.length → tField mem t ⟨src, w.length, u⟩ = ub)) := by
  by_cases h1 : ∃ n rest, w = wire n ++ rest ∧ WF n
  · obtain ⟨n, rest, rfl, hn⟩ := h1
    refine Or.inl ⟨n, rest, rfl, hn, ?_⟩
    rw [tField_name ht hn hw hlen hu.clean, emit_one]
  have hl := hw.len
  have hpos : 0 < w.length := List.length_pos_iff.mpr hne
  have he : ((src : Int) + (w.length : Nat)).toNat = src + w.length := by omega
  have htf : tField mem t ⟨src, w.length, u⟩ = (match lenUname mem src (src + w.length) with
    | ok len => do
      let (_, s) ← domainToStr preslenName (mem.drop src) len
      ok (TRes.go ⟨src + len, (w.length : Nat) - (len : Int), uAddCstr u s ++ [32]⟩)
    | err r => ok (.bad (some r) u)
    | ub => ub
    | hang => hang
    | abort => abort) := by
    cases t with
    | name => simp only [tField, he]; cases lenUname mem src (src + w.length) <;> rfl
    | uname => simp only [tField, he]; cases lenUname mem src (src + w.length) <;> rfl
    | _ => exact absurd ht (by simp [IsName])
  have hwin : (mem.take (src + w.length)).drop src = w := by
    rw [List.drop_take, show src + w.length - src = w.length by omega, hw.eq]
  have hu32 : (src + w.length - src) % 2 ^ 32 = w.length := by
    rw [show src + w.length - src = w.length by omega]; omega
  have hlu : lenUname mem src (src + w.length) = (lenLoop mem (w.length + 1) src w.length >>= fun len =>
      if (w.length + 2 ^ 32 - len) % 2 ^ 32 > maxlenName then err .nameLen
      else ok ((w.length + 2 ^ 32 - len) % 2 ^ 32)) := by
    simp only [lenUname, hu32]
    rw [if_neg (by omega)]
  have hspec := lenLoop_spec (mem := mem) (w.length + 1) src w.length (by omega) hl
  rw [hwin] at hspec
  have hhang : Hanging w → lenLoop mem (w.length + 1) src w.length = ok (2 ^ 32 - 1) := by
    intro hh
    obtain ⟨m, _, hm2, hm3, _⟩ := hanging_iff.mp hh
    refine lenLoop_labs m (w.length + 1) src w.length (by omega) hl hm2 ?_
    rw [hwin, hm3]
  rcases hspec with h | ⟨n, hok, hp, h, hle⟩ | ⟨n, hok, hp, h⟩
  · refine Or.inr (Or.inl ⟨fun n rest e hn => h1 ⟨n, rest, e, hn⟩, ?_, ?_⟩)
    · intro hh; rw [hhang hh] at h; simp at h
    · rw [htf, hlu, h]; exact ⟨_, _, rfl⟩
  · have hwl := wire_length_pos n
    obtain ⟨rest, hr⟩ := hp
    have hbig : 255 < (wire n).length := by
      rcases Nat.lt_or_ge 255 (wire n).length with h | h
      · exact h
      · exact absurd ⟨n, rest, hr.symm, hok, h⟩ h1
    refine Or.inr (Or.inl ⟨fun n rest e hn => h1 ⟨n, rest, e, hn⟩, ?_, ?_⟩)
    · intro hh; exact hanging_not_taken hh hok hr.symm
    · rw [htf, hlu, h, ok_bind, if_pos (by unfold maxlenName; omega)]; exact ⟨_, _, rfl⟩
  · have hnn : n ≠ [] := by
      rintro rfl
      exact hne hp.symm
    by_cases h254 : w.length ≤ 254
    · have hh : Hanging w := hanging_iff.mpr ⟨n, hnn, hok, hp, h254⟩
      refine Or.inr (Or.inr ⟨hh, fun hend => ?_⟩)
      have hlen1 : (w.length + 2 ^ 32 - (2 ^ 32 - 1)) % 2 ^ 32 = w.length + 1 := by omega
      rw [htf, hlu, h, ok_bind, hlen1, if_neg (by unfold maxlenName; omega)]
      have hmem : mem.drop src = w := by
        have := hw.eq
        rwa [List.take_of_length_le (by rw [List.length_drop]; omega)] at this
      have hd : domainToStr preslenName (mem.drop src) (w.length + 1) = ub := by
        rw [hmem]
        unfold domainToStr
        obtain ⟨c, w', hcw⟩ := List.exists_cons_of_ne_nil hne
        have h0 : w[0]? = some c := by rw [hcw]; rfl
        have hge := labs_length_ge n
        rw [hp] at hge
        rw [rd_ok.mpr h0, ok_bind, dtsOuter_hang n 0 (w.length + 1) 0 (w.length + 1 + 1) [] c hnn hok (by rw [List.drop_zero, hp])
          (by rw [hp]; omega) (by omega) h0]
        rfl
      simp only [hd]
      rfl
    · refine Or.inr (Or.inl ⟨fun n rest e hn => h1 ⟨n, rest, e, hn⟩, ?_, ?_⟩)
      · intro hh
        obtain ⟨_, _, _, _, h⟩ := hh
        exact h254 h
      · have hlen1 : (w.length + 2 ^ 32 - (2 ^ 32 - 1)) % 2 ^ 32 = w.length + 1 := by omega
        rw [htf, hlu, h, ok_bind, hlen1, if_pos (by unfold maxlenName; omega)]; exact ⟨_, _, rfl⟩

end Wdns
