import Verif.Spec.AnyText
import Verif.Lemmas.NameText

/-!
# C127: `wdns_domain_to_str` on arbitrary octets
-/

namespace Wdns
open Outcome Spec

theorem anyText_unique {s : List UInt8} {k k' : Nat} {t t' : List UInt8} {z z' : Bool} (h : AnyText s k t z) : AnyText s k' t' z' → k = k' ∧ t = t' ∧ z = z' := by
  induction h generalizing k' t' z' with
  | used => intro h'; cases h'; exact ⟨rfl, rfl, rfl⟩
  | zero =>
    intro h'
    generalize hs : (0 :: _ : List UInt8) = s at h'
    cases h' with
    | used => cases hs
    | zero => exact ⟨rfl, rfl, rfl⟩
    | label h1 => cases hs; exact absurd rfl h1
    | cut h1 => cases hs; exact absurd rfl h1
  | @label c l s k t z h1 h2 h3 ih =>
    intro h'
    generalize hs : c :: (l ++ s) = w at h'
    cases h' with
    | used => cases hs
    | zero => cases hs; exact absurd rfl h1
    | label g1 g2 g3 =>
      simp only [List.cons.injEq] at hs
      obtain ⟨rfl, hs⟩ := hs
      obtain ⟨rfl, rfl⟩ := List.append_inj hs (by omega)
      obtain ⟨rfl, rfl, rfl⟩ := ih g3
      exact ⟨rfl, rfl, rfl⟩
    | cut g1 g2 =>
      simp only [List.cons.injEq] at hs
      obtain ⟨rfl, rfl⟩ := hs
      simp at g2; omega
  | @cut c l h1 h2 =>
    intro h'
    generalize hs : c :: l = w at h'
    cases h' with
    | used => cases hs
    | zero => cases hs; exact absurd rfl h1
    | label g1 g2 g3 =>
      simp only [List.cons.injEq] at hs
      obtain ⟨rfl, rfl⟩ := hs
      simp at h2; omega
    | cut g1 g2 =>
      simp only [List.cons.injEq] at hs
      obtain ⟨rfl, rfl⟩ := hs
      exact ⟨rfl, rfl, rfl⟩

theorem anyText_total : ∀ (n : Nat) (s : List UInt8), s.length ≤ n → ∃ k t z, AnyText s k t z := by
  intro n
  induction n with
  | zero => intro s h; rw [List.length_eq_zero_iff.mp (Nat.le_zero.mp h)]; exact ⟨_, _, _, .used⟩
  | succ n ih =>
    intro s h
    cases s with
    | nil => exact ⟨_, _, _, .used⟩
    | cons c s =>
      by_cases h0 : c = 0
      · subst h0; exact ⟨_, _, _, .zero⟩
      by_cases hc : s.length < c.toNat
      · exact ⟨_, _, _, .cut h0 hc⟩
      obtain ⟨k, t, z, hk⟩ := ih (s.drop c.toNat) (by simp at h ⊢; omega)
      have := AnyText.label (l := s.take c.toNat) h0 (by simp; omega) hk
      rw [List.take_append_drop] at this
      exact ⟨_, _, _, this⟩

theorem labelText_len (l : List UInt8) : (labelText l).length ≤ 4 * l.length := by
  induction l with
  | nil => simp [labelText]
  | cons c l ih =>
    have : (escByte c).length ≤ 4 := by unfold escByte; split <;> (try split) <;> simp
    simp only [labelText, List.flatMap_cons, List.length_append, List.length_cons] at ih ⊢
    omega

theorem anyText_len {s : List UInt8} {k : Nat} {t : List UInt8} {z : Bool} (h : AnyText s k t z) : t.length ≤ 4 * s.length ∧ (t = [] ↔ k = 0) := by
  induction h with
  | used => simp
  | zero => simp
  | @label c l s k t z h1 h2 h3 ih => have := labelText_len l; simp; omega
  | @cut c l h1 h2 => have := labelText_len l; simp; omega

/-- The inner loop, whether or not the octets and the buffer suffice. -/
theorem dtsInner_any {cap : Nat} {mem : List UInt8} : ∀ (k src rem : Nat) (out l : List UInt8), src + rem ≤ mem.length → l = (mem.drop src).take (min k rem) →
    (out.length + (labelText l).length + 1 ≤ cap ∧ dtsInner cap mem k src rem out = ok (src + l.length, rem - l.length, out ++ labelText l)) ∨
    (cap < out.length + (labelText l).length + 1 ∧ (dtsInner cap mem k src rem out = ub ∨ ∃ s r o, dtsInner cap mem k src rem out = ok (s, r, o) ∧ s = src + l.length ∧ cap ≤ o.length)) := by
  intro k
  induction k with
  | zero =>
    intro src rem out l hm hl
    rw [show min 0 rem = 0 by omega, List.take_zero] at hl
    subst hl
    simp only [dtsInner, labelText, List.flatMap_nil, List.length_nil, Nat.add_zero, List.append_nil, Nat.sub_zero]
    by_cases hc : out.length + 1 ≤ cap
    · exact .inl ⟨hc, trivial⟩
    · exact .inr ⟨by omega, .inr ⟨_, _, _, rfl, rfl, by omega⟩⟩
  | succ k ih =>
    intro src rem out l hm hl
    by_cases hr : rem = 0
    · subst hr
      rw [show min (k + 1) 0 = 0 by omega, List.take_zero] at hl
      subst hl
      simp only [dtsInner, labelText, List.flatMap_nil, List.length_nil, Nat.add_zero, List.append_nil, Nat.sub_zero, Nat.lt_irrefl, gt_iff_lt, if_false]
      by_cases hc : out.length + 1 ≤ cap
      · exact .inl ⟨hc, trivial⟩
      · exact .inr ⟨by omega, .inr ⟨_, _, _, rfl, rfl, by omega⟩⟩
    have hlt : src < mem.length := by omega
    have hget : mem[src]? = some mem[src] := List.getElem?_eq_getElem hlt
    rw [show min (k + 1) rem = min k (rem - 1) + 1 by omega, List.drop_eq_getElem_cons hlt, List.take_succ_cons] at hl
    generalize mem[src] = c at hget hl
    generalize hl' : (mem.drop (src + 1)).take (min k (rem - 1)) = l' at hl
    subst hl
    have hlt' : labelText (c :: l') = escByte c ++ labelText l' := by simp [labelText]
    have hi := fun out => ih (src + 1) (rem - 1) out l' (by omega) hl'.symm
    rw [hlt', List.length_append, List.length_cons, dtsInner, if_pos (by omega), rd, hget, ok_bind]
    simp only
    have fin : ∀ e : List UInt8, escByte c = e →
        (out.length + e.length + (labelText l').length + 1 ≤ cap ∧ dtsInner cap mem k (src + 1) (rem - 1) (out ++ e) = ok (src + (l'.length + 1), rem - (l'.length + 1), out ++ (e ++ labelText l'))) ∨
        (cap < out.length + e.length + (labelText l').length + 1 ∧ (dtsInner cap mem k (src + 1) (rem - 1) (out ++ e) = ub ∨
          ∃ s r o, dtsInner cap mem k (src + 1) (rem - 1) (out ++ e) = ok (s, r, o) ∧ s = src + (l'.length + 1) ∧ cap ≤ o.length)) := by
      intro e _
      rcases hi (out ++ e) with ⟨a, b⟩ | ⟨a, b⟩
      · left
        refine ⟨by simp only [List.length_append] at a; omega, ?_⟩
        rw [b, List.append_assoc, show src + 1 + l'.length = src + (l'.length + 1) by omega, show rem - 1 - l'.length = rem - (l'.length + 1) by omega]
      · right
        refine ⟨by simp only [List.length_append] at a; omega, ?_⟩
        rcases b with b | ⟨s, r, o, b, b1, b2⟩
        · exact .inl b
        · exact .inr ⟨s, r, o, b, by omega, b2⟩
    by_cases h1 : c.toNat = 46 ∨ c.toNat = 92
    · have he : escByte c = [92, c] := by rw [escByte, if_pos h1]
      rw [if_pos h1, he]
      unfold wrN
      by_cases hw : out.length + [92, c].length ≤ cap
      · rw [if_pos hw, ok_bind]
        simpa only [Nat.add_assoc] using fin _ he
      · rw [if_neg hw, ub_bind]
        exact .inr ⟨by omega, .inl rfl⟩
    rw [if_neg h1]
    by_cases h2 : c.toNat ≥ 33 ∧ c.toNat ≤ 126
    · have he : escByte c = [c] := by rw [escByte, if_neg h1, if_pos h2]
      rw [if_pos h2, he]
      unfold wr
      by_cases hw : out.length + 1 ≤ cap
      · rw [if_pos (by omega), ok_bind]
        simpa only [Nat.add_assoc] using fin _ he
      · rw [if_neg (by omega), ub_bind]
        exact .inr ⟨by simp only [List.length_singleton]; omega, .inl rfl⟩
    have he : escByte c = 92 :: dec3 c := by rw [escByte, if_neg h1, if_neg h2]; rfl
    have hl4 : (92 :: dec3 c).length = 4 := rfl
    rw [if_neg h2, he]
    by_cases hw : out.length + 5 ≤ cap
    · rw [if_pos hw]
      simpa only [Nat.add_assoc] using fin _ he
    · rw [if_neg hw]
      exact .inr ⟨by omega, .inl rfl⟩

/-- The outer loop, where the octet `oc` at `src` has been read. -/
theorem dtsOuter_any {cap : Nat} {mem : List UInt8} : ∀ (fuel src rem br : Nat) (out : List UInt8) (oc : UInt8) (k : Nat) (t : List UInt8) (z : Bool),
    src + rem ≤ mem.length → rem < fuel → mem[src]? = some oc → AnyText ((mem.drop src).take rem) k t z →
    (z = false ∧ src + rem = mem.length → dtsOuter cap mem fuel src rem oc br out = ub) ∧
    (z = true ∨ src + rem < mem.length →
      (out.length + t.length + 1 ≤ cap ∧ dtsOuter cap mem fuel src rem oc br out = ok (br + k, out ++ t)) ∨
      (cap < out.length + t.length + 1 ∧ (dtsOuter cap mem fuel src rem oc br out = ub ∨ ∃ b o, dtsOuter cap mem fuel src rem oc br out = ok (b, o) ∧ cap ≤ o.length))) := by
  intro fuel
  induction fuel with
  | zero => intro src rem br out oc k t z _ h; omega
  | succ fuel ih =>
    intro src rem br out oc k t z hm hf hget ht
    have hlt := getElem?_some_lt hget
    have hlen : ((mem.drop src).take rem).length = rem := by rw [List.length_take, List.length_drop]; omega
    have stay : ∀ (_ : ¬ (rem > 0 ∧ oc ≠ 0)), dtsOuter cap mem (fuel + 1) src rem oc br out = ok (br, out) := by
      intro h; rw [dtsOuter, if_neg h]
    have stop : ∀ (_ : ¬ (rem > 0 ∧ oc ≠ 0)),
        (out.length + ([] : List UInt8).length + 1 ≤ cap ∧ dtsOuter cap mem (fuel + 1) src rem oc br out = ok (br + 0, out ++ [])) ∨
        (cap < out.length + ([] : List UInt8).length + 1 ∧ (dtsOuter cap mem (fuel + 1) src rem oc br out = ub ∨ ∃ b o, dtsOuter cap mem (fuel + 1) src rem oc br out = ok (b, o) ∧ cap ≤ o.length)) := by
      intro h
      rw [stay h, List.append_nil]
      by_cases hc : out.length + 1 ≤ cap
      · exact .inl ⟨by simpa using hc, rfl⟩
      · exact .inr ⟨by simp; omega, .inr ⟨_, _, rfl, by omega⟩⟩
    by_cases hr : rem = 0
    · subst hr
      rw [List.take_zero] at ht
      cases ht
      exact ⟨fun h => by omega, fun _ => stop (by simp)⟩
    have hd : (mem.drop src).take rem = oc :: (mem.drop (src + 1)).take (rem - 1) := by
      rw [List.drop_eq_getElem_cons hlt, show rem = rem - 1 + 1 by omega, List.take_succ_cons]
      rw [List.getElem?_eq_getElem hlt] at hget
      rw [Option.some.inj hget]; rfl
    rw [hd] at ht hlen
    by_cases h0 : oc = 0
    · subst h0
      obtain ⟨hk, hT, hz⟩ := anyText_unique ht .zero
      subst hk hT hz
      exact ⟨fun h => absurd h.1 (by simp), fun _ => stop (by simp)⟩
    -- one label, whole or cut off
    have step : dtsOuter cap mem (fuel + 1) src rem oc br out = (dtsInner cap mem oc.toNat (src + 1) (rem - 1) out >>= fun x =>
        wr cap x.2.2 46 >>= fun o => rd mem x.1 >>= fun c => dtsOuter cap mem fuel x.1 x.2.1 c (br + (oc.toNat + 1)) o) := by
      rw [dtsOuter, if_pos ⟨by omega, h0⟩]
    generalize hl : (mem.drop (src + 1)).take (min oc.toNat (rem - 1)) = l
    have hll : l.length = min oc.toNat (rem - 1) := by rw [← hl, List.length_take, List.length_drop]; omega
    -- what the label and the rest give
    obtain ⟨k', t', hs, rfl, rfl⟩ : ∃ k' t', AnyText ((mem.drop (src + 1 + l.length)).take (rem - 1 - l.length)) k' t' z ∧ k = oc.toNat + 1 + k' ∧ t = labelText l ++ 46 :: t' := by
      by_cases hcut : rem - 1 < oc.toNat
      · have e : l = (mem.drop (src + 1)).take (rem - 1) := by rw [← hl, show min oc.toNat (rem - 1) = rem - 1 by omega]
        rw [← e] at ht
        obtain ⟨rfl, rfl, rfl⟩ := anyText_unique ht (.cut h0 (by omega))
        refine ⟨0, [], ?_, rfl, rfl⟩
        rw [show rem - 1 - l.length = 0 by omega, List.take_zero]
        exact .used
      · have e1 : min oc.toNat (rem - 1) = oc.toNat := by omega
        have e2 : (mem.drop (src + 1)).take (rem - 1) = l ++ (mem.drop (src + 1 + l.length)).take (rem - 1 - l.length) := by
          have hl2 : (mem.drop (src + 1)).take oc.toNat = l := by rw [← hl, e1]
          rw [show l.length = oc.toNat by omega, ← List.drop_drop (i := oc.toNat), ← hl2, ← List.take_add]
          congr 1; omega
        rw [e2] at ht
        obtain ⟨k', t', z', hx⟩ := anyText_total _ ((mem.drop (src + 1 + l.length)).take (rem - 1 - l.length)) (Nat.le_refl _)
        obtain ⟨rfl, rfl, rfl⟩ := anyText_unique ht (.label h0 (by omega) hx)
        exact ⟨k', t', hx, rfl, rfl⟩
    have big : (labelText l ++ 46 :: t').length = (labelText l).length + t'.length + 1 := by simp; omega
    rcases dtsInner_any oc.toNat (src + 1) (rem - 1) out l (by omega) hl.symm with ⟨a, b⟩ | ⟨a, b⟩
    · rw [step, b, ok_bind]
      simp only
      have hw : wr cap (out ++ labelText l) 46 = ok (out ++ labelText l ++ [46]) := by
        unfold wr; rw [if_pos (by simp only [List.length_append]; omega)]
      rw [hw, ok_bind]
      cases hn : mem[src + 1 + l.length]? with
      | none =>
        simp only [List.getElem?_eq_none_iff] at hn
        have : rem - 1 - l.length = 0 := by omega
        rw [this, List.take_zero] at hs
        cases hs
        rw [rd, List.getElem?_eq_none (by omega)]
        exact ⟨fun _ => rfl, fun h => h.elim (fun h => by cases h) (fun h => by omega)⟩
      | some c' =>
        rw [rd, hn, ok_bind]
        have := ih (src + 1 + l.length) (rem - 1 - l.length) (br + (oc.toNat + 1)) (out ++ labelText l ++ [46]) c' k' t' z (by omega) (by omega) hn hs
        obtain ⟨i1, i2⟩ := this
        have eL : (out ++ labelText l ++ [46]).length = out.length + (labelText l).length + 1 := by simp; omega
        refine ⟨fun h => i1 ⟨h.1, by omega⟩, fun h => ?_⟩
        rcases i2 (h.imp_right fun h => by omega) with ⟨c1, c2⟩ | ⟨c1, c2⟩
        · left
          refine ⟨by omega, ?_⟩
          rw [c2, List.append_assoc, List.append_assoc, List.singleton_append, show br + (oc.toNat + 1) + k' = br + (oc.toNat + 1 + k') by omega]
        · exact .inr ⟨by omega, c2⟩
    · have hub : dtsOuter cap mem (fuel + 1) src rem oc br out = ub := by
        rw [step]
        rcases b with b | ⟨s, r, o, b, -, b2⟩
        · rw [b, ub_bind]
        · rw [b, ok_bind]
          simp only
          have : wr cap o 46 = ub := by unfold wr; rw [if_neg (by omega)]
          rw [this, ub_bind]
      rw [hub]
      exact ⟨fun _ => rfl, fun _ => .inr ⟨by omega, .inl rfl⟩⟩

theorem domainToStr_any {cap : Nat} {mem : List UInt8} {n k : Nat} {t : List UInt8} {z : Bool} (hm : n ≤ mem.length) (h : AnyText (mem.take n) k t z) :
    domainToStr cap mem n = if (z = true ∨ n < mem.length) ∧ (dotted t).length + 1 ≤ cap then ok (k + 1, dotted t) else ub := by
  have hlen := anyText_len h
  unfold domainToStr
  cases hc : mem[0]? with
  | none =>
    simp only [List.getElem?_eq_none_iff] at hc
    obtain rfl : n = 0 := by omega
    rw [List.take_zero] at h
    cases h
    rw [rd, List.getElem?_eq_none (by omega), if_neg (by simp; omega)]
    rfl
  | some oc =>
    rw [rd, hc, ok_bind]
    obtain ⟨h1, h2⟩ := dtsOuter_any (cap := cap) (n + 1) 0 n 0 [] oc k t z (by omega) (by omega) hc (by simpa using h)
    by_cases hz : z = true ∨ n < mem.length
    rotate_left
    · rw [h1 ⟨by simpa using fun e => hz (.inl e), by omega⟩, ub_bind, if_neg (fun h => hz h.1)]
    have hdot : (dotted t).length = max 1 t.length := by
      unfold dotted
      split
      · rename_i e; simp [e]
      · rename_i e
        have : t.length ≠ 0 := fun e' => e (List.length_eq_zero_iff.mp e')
        omega
    simp only [List.length_nil, Nat.zero_add, List.nil_append] at h2
    rcases h2 (by simpa using hz) with ⟨a, b⟩ | ⟨a, b⟩
    · rw [b, ok_bind]
      simp only
      by_cases hk : k = 0
      · have e := hlen.2.mpr hk
        subst e hk
        simp only [if_true, wr, List.length_nil, Nat.zero_add, List.nil_append, dotted]
        by_cases hcap : 2 ≤ cap
        · rw [if_pos (by omega), ok_bind, if_pos (by simpa using hcap), ok_bind, if_pos ⟨hz, by simpa using hcap⟩]
        · rw [if_neg (c := (z = true ∨ n < mem.length) ∧ _) (by simp; omega)]
          by_cases h1 : 1 ≤ cap
          · rw [if_pos h1, ok_bind, if_neg (by simp; omega), ub_bind]
          · rw [if_neg h1, ub_bind]
      · have e : t ≠ [] := fun e => hk (hlen.2.mp e)
        rw [if_neg hk, ok_bind, wr, if_pos a, ok_bind, dotted, if_neg e, if_pos ⟨hz, a⟩]
    · rw [if_neg (by omega)]
      rcases b with b | ⟨r, o, b, b2⟩
      · rw [b, ub_bind]
      · rw [b, ok_bind]
        simp only
        by_cases hr : r = 0
        · rw [if_pos hr, wr, if_neg (by omega), ub_bind]
        · rw [if_neg hr, ok_bind, wr, if_neg (by omega), ub_bind]

/-- **C127.** The text `wdns_domain_to_str` writes for any `n` octets behind which one more can be read, and what it returns; if the text and the NUL do not
fit the buffer, the function writes beyond it. -/
theorem C127_domain_text (cap : Nat) (mem : List UInt8) (n : Nat) (hm : n < mem.length) (r : Outcome (Nat × List UInt8)) :
    domainToStr cap mem n = r ↔ ∃ k t z, AnyText (mem.take n) k t z ∧ r = if (dotted t).length + 1 ≤ cap then ok (k + 1, dotted t) else ub := by
  have e : ∀ (z : Bool) (P : Prop), ((z = true ∨ n < mem.length) ∧ P) = P := fun z P => by simp [hm]
  constructor
  · rintro rfl
    obtain ⟨k, t, z, h⟩ := anyText_total _ (mem.take n) (Nat.le_refl _)
    refine ⟨k, t, z, h, ?_⟩
    rw [domainToStr_any (by omega) h]
    simp only [e]
  · rintro ⟨k, t, z, h, rfl⟩
    rw [domainToStr_any (by omega) h]
    simp only [e]

/-- **C127.** For every name object of at most 255 octets, well-formed or not, behind which one more octet can be read, a buffer of `WDNS_PRESLEN_NAME` octets suffices. -/
theorem C127_domain_fits (cap : Nat) (mem : List UInt8) (n : Nat) (hm : n < mem.length) (hn : n ≤ 255) (hcap : 1025 ≤ cap) :
    ∃ k t, domainToStr cap mem n = ok (k, t) ∧ t.length ≤ 1020 := by
  obtain ⟨k, t, z, h⟩ := anyText_total _ (mem.take n) (Nat.le_refl _)
  have h1 := (anyText_len h).1
  have hd : (dotted t).length ≤ 1020 := by
    rw [List.length_take] at h1
    unfold dotted; split
    · simp
    · omega
  exact ⟨k + 1, dotted t, by rw [domainToStr_any (by omega) h, if_pos ⟨.inr hm, by omega⟩], hd⟩

/-- **C127**: exactly when `wdns_domain_to_str` reads behind the octets it is given: when there is no zero octet where a length is due. -/
theorem C127_domain_leaves (cap : Nat) (mem : List UInt8) (hcap : 4 * mem.length + 2 ≤ cap) :
    domainToStr cap mem mem.length = ub ↔ ∃ k t, AnyText mem k t false := by
  obtain ⟨k, t, z, h⟩ := anyText_total _ mem (Nat.le_refl _)
  have h1 := (anyText_len h).1
  have hd : (dotted t).length + 1 ≤ cap := by
    unfold dotted; split
    · simp; omega
    · omega
  rw [domainToStr_any (Nat.le_refl _) (by rw [List.take_length]; exact h)]
  cases z with
  | true =>
    rw [if_pos ⟨.inl rfl, hd⟩]
    constructor
    · intro h; cases h
    · rintro ⟨k', t', h'⟩
      have := (anyText_unique h h').2.2
      cases this
  | false =>
    rw [if_neg (by simp)]
    exact ⟨fun _ => ⟨k, t, h⟩, fun _ => rfl⟩

/-- **C127 is violated** for name objects that are not names: the octet behind the object is read, and the returned length can be larger than the object. -/
theorem C127_domain_violated : domainToStr 1025 [1, 97] 2 = ub ∧ domainToStr 1025 [5, 97, 98] 2 = ok (7, ascii "a.") := by decide +kernel

/-- Cases of `C127_domain_text` and `C127_domain_leaves`: a name, labels without a zero octet, a label that is cut off, a length octet above 63. -/
example : domainToStr 1025 [1, 97, 0, 7] 3 = ok (3, ascii "a.") ∧ domainToStr 1025 [1, 97, 1, 98, 9] 4 = ok (5, ascii "a.b.") ∧
    domainToStr 1025 [3, 97, 32, 9] 3 = ok (5, ascii "a\\032.") ∧ domainToStr 1025 (64 :: List.replicate 66 97) 65 = ok (66, List.replicate 64 97 ++ [46]) ∧
    domainToStr 2 [1, 97, 0, 7] 3 = ub := by decide +kernel

end Wdns
