import Verif.Props.NameText
import Verif.Props.NameOps

/-!
# C124: the functions on names fit together
-/

namespace Wdns
open Outcome Spec

theorem holds_octets {c : CName} {n : Name} (h : Holds c n) : c.data.take c.len = wire n := by
  rw [h.2.1]; exact (List.prefix_iff_eq_take.mp h.2.2).symm

theorem holds_reverse {c : CName} {n : Name} (h : Holds c n) : reverseName c.data c.len = ok (wire n.reverse) := by
  obtain ⟨hw, hl, rest, hr⟩ := h
  rw [hl, ← hr]
  exact (C13_reverse n rest hw).1

theorem holds_inj {c c' : CName} {n n' : Name} (h : Holds c n) (h' : Holds c' n') : c.data.take c.len = c'.data.take c'.len ↔ n = n' := by
  rw [holds_octets h, holds_octets h']
  exact ⟨wire_inj h.1.1 h'.1.1, fun e => by rw [e]⟩

/-- **C124.**  A name is below another one if and only if chopping labels off it gives the other one. -/
theorem C124_subdomain_chop {c0 c1 : CName} {n0 n1 : Name} (h0 : Holds c0 n0) (h1 : Holds c1 n1) :
    isSubdomain c0 c1 = ok true ↔
      ∃ l k c', countLabels c0 = ok l ∧ 1 ≤ k ∧ k ≤ l ∧ chopN k c0 = ok c' ∧ c'.data.take c'.len = c1.data.take c1.len := by
  obtain ⟨b, hb, hiff⟩ := C12_is_subdomain c0 c1 n0 n1 h0 h1
  have hb' : isSubdomain c0 c1 = ok true ↔ (n1 <:+ n0 ∧ n1 ≠ n0) := by
    rw [hb, ← hiff]; simp
  rw [hb']
  constructor
  · rintro ⟨⟨p, hp⟩, hne⟩
    obtain ⟨c', k1, k2⟩ := (C11_chop_reaches_root c0 n0 h0).1 p.length
    have hd : n0.drop p.length = n1 := by rw [← hp]; simp
    rw [hd] at k2
    refine ⟨_, p.length, c', C10_count_labels c0 n0 h0, ?_, ?_, k1, (holds_inj k2 h1).mpr rfl⟩
    · cases p with
      | nil => exact absurd hp hne
      | cons => simp
    · rw [← hp]; simp
  · rintro ⟨l, k, c', hl, hk, hkl, hc, he⟩
    rw [C10_count_labels c0 n0 h0] at hl
    cases hl
    obtain ⟨c2, k1, k2⟩ := (C11_chop_reaches_root c0 n0 h0).1 k
    rw [hc] at k1
    cases k1
    have := (holds_inj k2 h1).mp he
    refine ⟨this ▸ List.drop_suffix _ _, fun h => ?_⟩
    have := congrArg List.length this
    rw [List.length_drop, h] at this
    omega

theorem labs_prefix : ∀ {m n : Name}, (∀ l ∈ m, LabelOK l) → (∀ l ∈ n, LabelOK l) → (labs m <+: wire n ↔ m <+: n)
  | [], n, _, _ => by simp [labs]
  | l :: m, [], hm, _ => by
    have := hm l (by simp)
    simp only [labs, wire, List.cons_prefix_cons, List.prefix_nil]
    refine ⟨fun h => ?_, fun h => absurd h (by simp)⟩
    have h := congrArg UInt8.toNat h.1
    rw [UInt8.toNat_ofNat', Nat.mod_eq_of_lt (by have := this.2; omega)] at h
    have h1 := this.1
    rw [show (0 : UInt8).toNat = 0 from rfl] at h
    omega
  | l :: m, l' :: n, hm, hn => by
    have h1 := hm l (by simp)
    have h2 := hn l' (by simp)
    have ih := labs_prefix (m := m) (n := n) (fun x hx => hm x (by simp [hx])) (fun x hx => hn x (by simp [hx]))
    simp only [labs, wire, List.cons_prefix_cons]
    constructor
    · rintro ⟨e, h⟩
      have e := congrArg UInt8.toNat e
      rw [UInt8.toNat_ofNat', UInt8.toNat_ofNat', Nat.mod_eq_of_lt (by have := h1.2; omega), Nat.mod_eq_of_lt (by have := h2.2; omega)] at e
      obtain ⟨t, ht⟩ := h
      rw [List.append_assoc] at ht
      obtain ⟨rfl, h⟩ := List.append_inj ht e
      exact ⟨rfl, ih.mp ⟨t, h⟩⟩
    · rintro ⟨rfl, h⟩
      exact ⟨rfl, (List.prefix_append_right_inj _).mpr (ih.mpr h)⟩

/-- **C124.**  What reversed names are for: a name is another one or below it if and only if its reversed octets begin with the reversed
octets of the other one, without their last. -/
theorem C124_subdomain_reverse {c0 c1 : CName} {n0 n1 : Name} (h0 : Holds c0 n0) (h1 : Holds c1 n1) :
    ∃ r0 r1, reverseName c0.data c0.len = ok r0 ∧ reverseName c1.data c1.len = ok r1 ∧
      ((isSubdomain c0 c1 = ok true ∨ c0.data.take c0.len = c1.data.take c1.len) ↔ r1.dropLast <+: r0) := by
  obtain ⟨b, hb, hiff⟩ := C12_is_subdomain c0 c1 n0 n1 h0 h1
  have hb' : isSubdomain c0 c1 = ok true ↔ (n1 <:+ n0 ∧ n1 ≠ n0) := by
    rw [hb, ← hiff]; simp
  refine ⟨_, _, holds_reverse h0, holds_reverse h1, ?_⟩
  rw [hb', holds_inj h0 h1, wire_eq_labs n1.reverse, List.dropLast_concat,
    labs_prefix (fun l hl => h1.1.1 l (by simpa using hl)) (fun l hl => h0.1.1 l (by simpa using hl)), List.reverse_prefix]
  constructor
  · rintro (h | rfl)
    · exact h.1
    · exact List.suffix_refl _
  · intro h
    by_cases e : n1 = n0
    · exact .inr e.symm
    · exact .inl ⟨h, e⟩

/-- **C124.**  Lower-cased names are compared without regard to case: one is below the other if and only if its labels end in those of the
other, up to the case of letters. -/
theorem C124_subdomain_downcase {c0 c1 : CName} {n0 n1 : Name} (h0 : Holds c0 n0) (h1 : Holds c1 n1) :
    ∃ d0 d1 b, downcaseName c0 = ok d0 ∧ downcaseName c1 = ok d1 ∧ isSubdomain d0 d1 = ok b ∧
      (b = true ↔ ∃ p q, n0 = p ++ q ∧ p ≠ [] ∧ lowerName q = lowerName n1) := by
  obtain ⟨d0, e0, k0⟩ := C14_downcase_name c0 n0 h0
  obtain ⟨d1, e1, k1⟩ := C14_downcase_name c1 n1 h1
  obtain ⟨b, hb, hiff⟩ := C12_is_subdomain d0 d1 _ _ k0 k1
  refine ⟨d0, d1, b, e0, e1, hb, hiff.trans ?_⟩
  constructor
  · rintro ⟨⟨p, hp⟩, hne⟩
    have hp' : n0.map (fun l => l.map lower) = p ++ lowerName n1 := hp.symm
    obtain ⟨p0, q0, rfl, h2, h3⟩ := List.map_eq_append_iff.mp hp'
    refine ⟨p0, q0, rfl, ?_, h3⟩
    rintro rfl
    cases h2
    exact hne (by simpa using hp)
  · rintro ⟨p, q, rfl, hp, hq⟩
    have : lowerName (p ++ q) = lowerName p ++ lowerName n1 := by rw [← hq]; exact List.map_append
    refine ⟨⟨_, this.symm⟩, fun h => ?_⟩
    have := congrArg List.length this
    rw [← h, List.length_append] at this
    have : (lowerName p).length = p.length := List.length_map _
    cases p with
    | nil => exact hp rfl
    | cons => simp at this; simp [this] at *

theorem escByte_lower (c : UInt8) : escByte (lower c) = (escByte c).map lower := by
  have key : ∀ n < 256, escByte (lower (UInt8.ofNat n)) = (escByte (UInt8.ofNat n)).map lower := by decide +kernel
  have := key c.toNat c.toNat_lt
  rwa [UInt8.ofNat_toNat] at this

theorem nameText_lower (n : Name) : nameText (lowerName n) = (nameText n).map lower := by
  unfold nameText
  cases n with
  | nil => rfl
  | cons l n =>
    rw [if_neg (by simp [lowerName]), if_neg (by simp), lowerName, List.flatMap_map, List.map_flatMap]
    congr 1
    funext l
    rw [List.map_append, labelText, labelText, List.flatMap_map, List.map_flatMap]
    congr 2
    funext c
    exact escByte_lower c

/-- **C124.**  The text of a lower-cased name is the lower-cased text of the name. -/
theorem C124_text_downcase {c : CName} {n : Name} (h : Holds c n) :
    ∃ d t u, downcaseName c = ok d ∧ domainToStr 1025 c.data c.len = ok (c.len, t) ∧ domainToStr 1025 d.data d.len = ok (d.len, u) ∧
      u = t.map lower := by
  have text : ∀ {c : CName} {n : Name}, Holds c n → domainToStr 1025 c.data c.len = ok (c.len, nameText n) := by
    rintro c n ⟨hw, hl, rest, hr⟩
    rw [hl, ← hr]
    exact (C16_name_text n rest hw).1
  obtain ⟨d, e, k⟩ := C14_downcase_name c n h
  exact ⟨d, _, _, e, text h, text k, nameText_lower n⟩

/-- **C124.**  Reversing keeps the number of labels, and reversing and lower-casing can be done in either order. -/
theorem C124_reverse_downcase {c : CName} {n : Name} (h : Holds c n) :
    ∃ r d l, reverseName c.data c.len = ok r ∧ countLabels c = ok l ∧ countLabels ⟨c.len, r⟩ = ok l ∧ downcaseName c = ok d ∧
      ∃ r', downcaseName ⟨c.len, r⟩ = ok ⟨c.len, r'⟩ ∧ reverseName d.data d.len = ok r' := by
  obtain ⟨d, e, k⟩ := C14_downcase_name c n h
  have hw := (C13_reverse n [] h.1).2
  have hlen : (wire n.reverse).length = c.len := by rw [h.2.1]; exact wire_reverse_length n
  have hr : Holds ⟨c.len, wire n.reverse⟩ n.reverse := ⟨hw, hlen.symm, List.prefix_refl _⟩
  refine ⟨_, d, _, holds_reverse h, C10_count_labels c n h, ?_, e, wire (lowerName n).reverse, ?_, holds_reverse k⟩
  · have := C10_count_labels _ _ hr
    rwa [List.length_reverse] at this
  · have h1 : (lowerName n).reverse = lowerName n.reverse := by simp [lowerName]
    rw [h1, downcaseName, downcaseBytes_spec _ _ (by rw [hlen]; exact Nat.le_refl _), ← hlen]
    simp only [ok_bind, List.take_length, List.drop_length, List.append_nil]
    rw [wire_lower _ hw.1]

/-- The hypotheses are met: `www.Ab` and `Ab`. -/
example : ∃ r0 r1 : List UInt8, reverseName [3, 119, 119, 119, 2, 65, 98, 0] 8 = ok r0 ∧ reverseName [2, 65, 98, 0] 4 = ok r1 ∧
    r1.dropLast <+: r0 ∧ isSubdomain ⟨8, [3, 119, 119, 119, 2, 65, 98, 0]⟩ ⟨4, [2, 65, 98, 0]⟩ = ok true :=
  ⟨[2, 65, 98, 3, 119, 119, 119, 0], [2, 65, 98, 0], by decide, by decide, by decide, by decide⟩

example : Holds ⟨8, [3, 119, 119, 119, 2, 65, 98, 0]⟩ [[119, 119, 119], [65, 98]] := ⟨by decide, by decide, by decide⟩

end Wdns
