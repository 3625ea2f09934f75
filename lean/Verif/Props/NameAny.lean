import Verif.Spec.NameAny
import Verif.Props.NameOps

/-!
# C80: the name functions on arbitrary name objects

Whatever octets a name object holds, provided one more octet behind it is readable: counting labels and comparing domains give a
result or an error code, and a result only if the octets are labels.  Without that octet, or for reversal, memory outside the objects
can be touched, and the theorems say exactly when.
-/

namespace Wdns
open Outcome Spec

theorem wire_cons (l : Label) (n : Name) : wire (l :: n) = UInt8.ofNat l.length :: (l ++ wire n) := by
  rw [wire_eq_labs, wire_eq_labs, labs]; simp

/-- What the loop of `wdns_count_labels` can do. -/
theorem countLoop_any (c : CName) (hm : c.len < c.data.length) : ∀ fuel pos k, pos ≤ c.len → c.len + 1 ≤ pos + fuel →
    (∃ n, (∀ l ∈ n, LabelOK l) ∧ wire n <+: c.data.drop pos ∧ pos + (wire n).length ≤ c.len + 1 ∧
      countLoop c fuel pos k = ok (k + n.length)) ∨
    countLoop c fuel pos k = err .nameOverflow ∨ countLoop c fuel pos k = err .invalidLengthOctet := by
  intro fuel
  induction fuel with
  | zero => intro pos k h1 h2; omega
  | succ fuel ih =>
    intro pos k h1 h2
    obtain ⟨x, hx⟩ : ∃ x, c.data[pos]? = some x := ⟨_, List.getElem?_eq_getElem (by omega)⟩
    simp only [countLoop, rd, hx, ok_bind]
    by_cases h0 : x = 0
    · subst h0
      rw [if_pos rfl]
      exact Or.inl ⟨[], by simp, stored_nil.mpr hx, by simp [wire]; omega, by simp⟩
    rw [if_neg h0]
    by_cases h63 : x.toNat ≤ 63
    · rw [if_pos h63]
      by_cases hov : pos + 1 + x.toNat > c.len
      · rw [if_pos hov]; exact Or.inr (Or.inl rfl)
      · rw [if_neg hov]
        rcases ih (pos + 1 + x.toNat) (k + 1) (by omega) (by omega) with ⟨n, g1, g2, g3, g4⟩ | g | g
        · left
          have hl : ((c.data.drop (pos + 1)).take x.toNat).length = x.toNat := take_drop_length _ _ _ (by omega)
          have hx0 : x.toNat ≠ 0 := by rw [u8_eq_zero] at h0; exact h0
          refine ⟨((c.data.drop (pos + 1)).take x.toNat) :: n, ?_, ?_, ?_, ?_⟩
          · intro l hm
            rcases List.mem_cons.mp hm with rfl | hm
            · constructor <;> omega
            · exact g1 l hm
          · refine stored_cons.mpr ⟨?_, List.take_prefix _ _, by rw [hl]; exact g2⟩
            rw [hx, hl]; simp
          · rw [wire_cons_length, hl]; omega
          · rw [g4, List.length_cons]; congr 1; omega
        · rw [g]; exact Or.inr (Or.inl rfl)
        · rw [g]; exact Or.inr (Or.inr rfl)
    · rw [if_neg h63]; exact Or.inr (Or.inr rfl)

/-- The loop on octets that are labels. -/
theorem countLabels_spells {c : CName} {n : Name} (h : Spells c n) : countLabels c = ok n.length := by
  obtain ⟨h1, h2, h3⟩ := h
  rw [countLabels, countLoop_spec c n 0 0 _ h1 (by simpa using h2) (by omega) (by omega)]
  simp

/-- **C80.** `wdns_count_labels` on any name object behind which one more octet is readable: the number of labels if the octets are
labels, otherwise an error code. -/
theorem C80_count_labels (c : CName) (hm : c.len < c.data.length) :
    (∃ n, Spells c n ∧ countLabels c = ok n.length) ∨
    ((¬ ∃ n, Spells c n) ∧ (countLabels c = err .nameOverflow ∨ countLabels c = err .invalidLengthOctet)) := by
  have := countLoop_any c hm (c.len + 1) 0 0 (by omega) (by omega)
  rcases this with ⟨n, h1, h2, h3, h4⟩ | h
  · exact Or.inl ⟨n, ⟨h1, by simpa using h2, by omega⟩, by rw [countLabels, h4]; simp⟩
  · refine Or.inr ⟨?_, h⟩
    rintro ⟨n, hn⟩
    have := countLabels_spells hn
    rcases h with h | h <;> · rw [countLabels] at this; rw [this] at h; cases h

/-- **C80.** `wdns_is_subdomain` on any two name objects behind each of which one more octet is readable: if both are labels, whether
the second is a proper suffix of the first; otherwise `wdns_res_parse_error`. -/
theorem C80_is_subdomain (c0 c1 : CName) (hm0 : c0.len < c0.data.length) (hm1 : c1.len < c1.data.length) (hl0 : c0.len ≤ 255)
    (hl1 : c1.len ≤ 255) :
    (∃ n0 n1 b, Spells c0 n0 ∧ Spells c1 n1 ∧ isSubdomain c0 c1 = ok b ∧ (b = true ↔ (n1 <:+ n0 ∧ n1 ≠ n0))) ∨
    ((¬ ∃ n0 n1, Spells c0 n0 ∧ Spells c1 n1) ∧ isSubdomain c0 c1 = err .parseError) := by
  rcases C80_count_labels c0 hm0 with ⟨n0, p0, k0⟩ | ⟨p0, k0⟩
  rotate_left
  · refine Or.inr ⟨fun ⟨n, _, h, _⟩ => p0 ⟨n, h⟩, ?_⟩
    rcases k0 with k0 | k0 <;> simp [isSubdomain, k0, asParseError]
  rcases C80_count_labels c1 hm1 with ⟨n1, p1, k1⟩ | ⟨p1, k1⟩
  rotate_left
  · refine Or.inr ⟨fun ⟨_, n, _, h⟩ => p1 ⟨n, h⟩, ?_⟩
    rcases k1 with k1 | k1 <;> simp [isSubdomain, k0, k1, asParseError]
  left
  refine ⟨n0, n1, ?_⟩
  have key : ∃ b, isSubdomain c0 c1 = ok b ∧ (b = true ↔ (n1 <:+ n0 ∧ n1 ≠ n0)) := by
    obtain ⟨w0, s0, l0⟩ := p0
    obtain ⟨w1, s1, l1⟩ := p1
    simp only [isSubdomain, k0, k1, asParseError, ok_bind]
    by_cases hle : n0.length ≤ n1.length
    · refine ⟨false, by simp [hle], by simp, ?_⟩
      rintro ⟨hs, hne⟩
      exact absurd (hs.eq_of_length (by have := hs.length_le; omega)) hne
    · rw [if_neg hle, if_neg (by omega)]
      by_cases hz : n1.length = 0
      · refine ⟨true, by simp [hz], fun _ => ?_, fun _ => rfl⟩
        have : n1 = [] := List.length_eq_zero_iff.mp hz
        subst this
        refine ⟨List.nil_suffix, ?_⟩
        rintro rfl; simp at hle
      · rw [if_neg hz]
        have e0 := offsetsLoop_spec c0 n0.length hl0 n0 0 [] (c0.len + 2) w0
          (by rintro rfl; simp at hle) (by simpa using s0) (by omega) (by simp) (by omega)
        have e1 := offsetsLoop_spec c1 n1.length hl1 n1 0 [] (c1.len + 2) w1
          (by rintro rfl; simp at hz) (by simpa using s1) (by omega) (by simp) (by omega)
        simp only [genLabelOffsets, e0, e1, List.nil_append, ok_bind, offs_length, Nat.sub_self,
          List.replicate_zero, List.append_nil]
        have q0 : labs n0.reverse.reverse <+: c0.data.drop 0 := by
          rw [List.reverse_reverse, List.drop_zero]
          rw [wire_eq_labs] at s0
          exact (List.prefix_append _ _).trans s0
        have q1 : labs n1.reverse.reverse <+: c1.data.drop 0 := by
          rw [List.reverse_reverse, List.drop_zero]
          rw [wire_eq_labs] at s1
          exact (List.prefix_append _ _).trans s1
        have := compareLoop_spec n1.reverse n0.reverse
          (fun l hm => w0 l (List.mem_reverse.mp hm)) (fun l hm => w1 l (List.mem_reverse.mp hm))
          q0 q1 (by simp; omega)
        simp only [List.reverse_reverse] at this
        rw [this]
        refine ⟨_, rfl, ?_⟩
        rw [decide_eq_true_iff, List.reverse_prefix]
        exact ⟨fun h => ⟨h, by rintro rfl; omega⟩, fun h => h.1⟩
  obtain ⟨b, h1, h2⟩ := key
  exact ⟨b, p0, p1, h1, h2⟩

/-- A case of `C80_is_subdomain`: a first name whose label is longer than the name. -/
example : isSubdomain ⟨3, [5, 97, 0, 0]⟩ ⟨1, [0, 0]⟩ = err .parseError := by
  rcases C80_is_subdomain ⟨3, [5, 97, 0, 0]⟩ ⟨1, [0, 0]⟩ (by decide) (by decide) (by decide) (by decide) with ⟨n0, n1, b, h0, -, -⟩ | h
  · rcases C80_count_labels ⟨3, [5, 97, 0, 0]⟩ (by decide) with ⟨n, -, h⟩ | h
    · have : countLabels ⟨3, [5, 97, 0, 0]⟩ = err .nameOverflow := by decide
      rw [this] at h; cases h
    · exact absurd ⟨n0, h0⟩ h.1
  · exact h.2

/-- **C80** (violated without the octet behind): on the name object of the two octets `01 61` both functions read the octet behind it. -/
theorem C80_overread_violated :
    countLabels ⟨2, [1, 97]⟩ = ub ∧ isSubdomain ⟨2, [1, 97]⟩ ⟨1, [0]⟩ = ub ∧ isSubdomain ⟨1, [0]⟩ ⟨2, [1, 97]⟩ = ub := by decide

/-- **C80.** `wdns_left_chop` on any non-empty name object gives a name object inside the given one, or `wdns_res_name_overflow` if the
first label is longer than the name. -/
theorem C80_left_chop (c : CName) (hl : 1 ≤ c.len) (hm : c.len ≤ c.data.length) :
    ∃ x, c.data[0]? = some x ∧
      ((x.toNat + 1 ≤ c.len ∧ ∃ c', leftChop c = ok c' ∧ c'.len ≤ c'.data.length ∧ c'.data.take c'.len <:+ c.data.take c.len ∧
          (c.data.take c.len ≠ [0] → c'.len + x.toNat + 1 = c.len)) ∨
       (c.len < x.toNat + 1 ∧ leftChop c = err .nameOverflow)) := by
  obtain ⟨x, hx⟩ : ∃ x, c.data[0]? = some x := ⟨_, List.getElem?_eq_getElem (by omega)⟩
  refine ⟨x, hx, ?_⟩
  simp only [leftChop, rd, hx, ok_bind]
  by_cases h1 : x = 0 ∧ c.len = 1
  · left
    obtain ⟨rfl, h2⟩ := h1
    refine ⟨by rw [h2]; decide, ⟨1, c.data⟩, by rw [if_pos ⟨rfl, h2⟩], by simp only; omega, by rw [h2]; exact List.suffix_rfl, ?_⟩
    intro hne
    exfalso
    apply hne
    rw [h2]
    cases hd : c.data with
    | nil => rw [hd] at hx; simp at hx
    | cons a t => rw [hd] at hx; simp at hx; simp [hx]
  · rw [if_neg h1]
    by_cases h2 : x.toNat + 1 > c.len
    · rw [if_pos h2]; exact Or.inr ⟨h2, rfl⟩
    · rw [if_neg h2]
      left
      refine ⟨by omega, _, rfl, by simp only [List.length_drop]; omega, ?_, fun _ => by simp only; omega⟩
      simp only
      rw [show c.len - x.toNat - 1 = c.len - (x.toNat + 1) by omega, ← List.drop_take]
      exact List.drop_suffix _ _

/-- A case of `C80_left_chop`: an unterminated name. -/
example : leftChop ⟨3, [1, 97, 9]⟩ = ok ⟨1, [9]⟩ ∧ leftChop ⟨1, [9]⟩ = err .nameOverflow := by decide

/-- Chopping the malformed name object `01 61` gives an empty name object, and chopping that one reads the octet behind it. -/
theorem C80_chop_violated : ∃ c', leftChop ⟨2, [1, 97]⟩ = ok c' ∧ c' = ⟨0, []⟩ ∧ leftChop c' = ub := ⟨_, by decide, rfl, by decide⟩

theorem chain_snoc {a : List UInt8} {ls} (h : Chain a ls) {c : UInt8} {l : List UInt8} (hc : c ≠ 0) (hl : l.length = c.toNat) :
    Chain (a ++ (c :: l)) (ls ++ [c :: l]) := by
  induction h with
  | nil => have := Chain.cons hc hl Chain.nil; simpa using this
  | @cons c' l' rest ls' h1 h2 _ ih => have := Chain.cons h1 h2 ih; simpa using this

/-- What the loop of `wdns_reverse_name` does after the labels `ls` (with their length octets), which are the first `p` octets. -/
theorem reverseLoop_any {name : List UInt8} {L : Nat} (hm : L < name.length) : ∀ fuel p ls, Chain (name.take p) ls → p < L → L ≤ p + fuel →
    (∃ ls' q, Chain (name.take q) ls' ∧ name[q]? = some 0 ∧ q < L ∧
      reverseLoop name L (fuel + 1) p ((L : Int) - 1 - p) p (List.replicate (L - 1 - p) 0 ++ ls.reverse.flatten ++ [0]) =
        ok (List.replicate (L - 1 - q) 0 ++ ls'.reverse.flatten ++ [0])) ∨
    (∃ ls', Chain (name.take L) ls' ∧ ls' ≠ [] ∧
      reverseLoop name L (fuel + 1) p ((L : Int) - 1 - p) p (List.replicate (L - 1 - p) 0 ++ ls.reverse.flatten ++ [0]) = ub) ∨
    (∃ ls' q c, Chain (name.take q) ls' ∧ name[q]? = some c ∧ c ≠ 0 ∧ q < L ∧ L < q + c.toNat + 1 ∧
      reverseLoop name L (fuel + 1) p ((L : Int) - 1 - p) p (List.replicate (L - 1 - p) 0 ++ ls.reverse.flatten ++ [0]) = err .outOfBounds) := by
  intro fuel
  induction fuel with
  | zero => intro p ls _ h1 h2; omega
  | succ fuel ih =>
    intro p ls hc hp hf
    obtain ⟨x, hx⟩ : ∃ x, name[p]? = some x := ⟨_, List.getElem?_eq_getElem (by omega)⟩
    rw [reverseLoop]
    simp only [rd, hx, ok_bind]
    by_cases h0 : x = 0
    · subst h0
      rw [if_pos rfl]
      exact Or.inl ⟨ls, p, hc, hx, hp, rfl⟩
    rw [if_neg h0]
    by_cases hov : p + (x.toNat + 1) > L
    · rw [if_pos hov]
      exact Or.inr (Or.inr ⟨ls, p, x, hc, hx, h0, hp, by omega, rfl⟩)
    rw [if_neg hov]
    have hx0 : x.toNat ≠ 0 := by rw [u8_eq_zero] at h0; exact h0
    have hl : ((name.drop (p + 1)).take x.toNat).length = x.toNat := take_drop_length _ _ _ (by omega)
    have hbs : (name.drop p).take (x.toNat + 1) = x :: (name.drop (p + 1)).take x.toNat := by
      rw [List.drop_eq_getElem_cons (by omega : p < name.length), List.take_succ_cons]
      congr 1
      have := List.getElem?_eq_getElem (by omega : p < name.length)
      rw [hx] at this
      exact (Option.some.inj this).symm
    have htk : name.take (p + (x.toNat + 1)) = name.take p ++ (x :: (name.drop (p + 1)).take x.toNat) := by
      rw [List.take_add, hbs]
    have hc' : Chain (name.take (p + (x.toNat + 1))) (ls ++ [x :: (name.drop (p + 1)).take x.toNat]) := by
      rw [htk]; exact chain_snoc hc h0 hl
    rw [rdN_ok (by omega), ok_bind, hbs]
    have hlen : ls.reverse.flatten.length = p := by
      have : ∀ {a : List UInt8} {ls}, Chain a ls → ls.reverse.flatten.length = a.length := by
        intro a ls h
        induction h with
        | nil => rfl
        | cons _ _ _ ih => simp only [List.reverse_cons, List.flatten_append, List.length_append, ih]; simp; omega
      rw [this hc, List.length_take]; omega
    by_cases hfull : p + (x.toNat + 1) = L
    · rw [if_neg (by rintro ⟨h, -⟩; omega)]
      right; left
      exact ⟨_, hfull ▸ hc', by simp, rfl⟩
    · have hpos : ((L : Int) - 1 - p - ((x.toNat + 1 : Nat) : Int)).toNat = L - 1 - (p + (x.toNat + 1)) := by omega
      rw [hpos, if_pos ⟨by omega, by simp [hlen]; omega⟩]
      have hrev : (List.replicate (L - 1 - p) 0 ++ ls.reverse.flatten ++ [0]).take (L - 1 - (p + (x.toNat + 1))) ++
          (x :: (name.drop (p + 1)).take x.toNat) ++
          (List.replicate (L - 1 - p) 0 ++ ls.reverse.flatten ++ [0]).drop (L - 1 - (p + (x.toNat + 1)) + (x.toNat + 1)) =
          List.replicate (L - 1 - (p + (x.toNat + 1))) 0 ++ (ls ++ [x :: (name.drop (p + 1)).take x.toNat]).reverse.flatten ++ [0] := by
        rw [show L - 1 - (p + (x.toNat + 1)) + (x.toNat + 1) = L - 1 - p by omega, List.append_assoc (List.replicate _ _)]
        rw [List.take_append_of_le_length (by simp; omega), List.drop_left' (by simp), List.take_replicate,
          show min (L - 1 - (p + (x.toNat + 1))) (L - 1 - p) = L - 1 - (p + (x.toNat + 1)) by omega]
        simp
      rw [hrev]
      have hz : ((L : Int) - 1 - p - ((x.toNat + 1 : Nat) : Int)) = (L : Int) - 1 - ((p + (x.toNat + 1) : Nat) : Int) := by omega
      rw [hz]
      exact ih (p + (x.toNat + 1)) _ hc' (by omega) (by omega)

/-- **C80.** `wdns_reverse_name` on any octets, of which one more than `len_name` is readable, and an output buffer of `len_name` > 0 octets.
(1) Labels (of up to 255 octets) up to a zero octet within the name: the labels in reverse order at the end of the buffer,
zeros in front.  (2) Labels that fill the name exactly, without a zero octet: the function writes in front of its buffer.  (3) Labels of which one
goes beyond the end of the name: `wdns_res_out_of_bounds`. -/
theorem C80_reverse (name : List UInt8) (L : Nat) (hL : 0 < L) (hm : L < name.length) :
    (∃ ls q, Chain (name.take q) ls ∧ name[q]? = some 0 ∧ q < L ∧
      reverseName name L = ok (List.replicate (L - 1 - q) 0 ++ ls.reverse.flatten ++ [0])) ∨
    (∃ ls, Chain (name.take L) ls ∧ ls ≠ [] ∧ reverseName name L = ub) ∨
    (∃ ls q c, Chain (name.take q) ls ∧ name[q]? = some c ∧ c ≠ 0 ∧ q < L ∧ L < q + c.toNat + 1 ∧
      reverseName name L = err .outOfBounds) := by
  have := reverseLoop_any hm L 0 [] .nil hL (by omega)
  have e : List.replicate (L - 1 - 0) 0 ++ ([] : List (List UInt8)).reverse.flatten ++ [0] = List.replicate L (0 : UInt8) := by
    obtain ⟨k, rfl⟩ : ∃ k, L = k + 1 := ⟨L - 1, by omega⟩
    simp [List.replicate_succ']
  rw [e] at this
  simpa [reverseName] using this

/-- The three cases occur. -/
example : reverseName [1, 97, 2, 98, 99, 0, 7, 7] 7 = ok [0, 2, 98, 99, 1, 97, 0] ∧ reverseName [1, 97, 2, 98, 99, 0, 7] 5 = ub ∧
    reverseName [1, 97, 2, 98, 99, 0, 7] 4 = err .outOfBounds := by decide

example : Spells ⟨2, [1, 97, 0]⟩ [[97]] ∧ ¬ Holds ⟨2, [1, 97, 0]⟩ [[97]] := by
  refine ⟨⟨by simp [LabelOK], by decide, by decide⟩, fun h => ?_⟩
  have := h.2.1
  revert this
  decide

example : ¬ ∃ n, Spells ⟨3, [5, 97, 0, 0]⟩ n := by
  rcases C80_count_labels ⟨3, [5, 97, 0, 0]⟩ (by decide) with ⟨n, -, h⟩ | h
  · have : countLabels ⟨3, [5, 97, 0, 0]⟩ = err .nameOverflow := by decide
    rw [this] at h; cases h
  · exact h.1

end Wdns
