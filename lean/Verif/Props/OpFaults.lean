import Verif.Spec.OpFaults
import Verif.Props.NameAny
import Verif.Props.UnpackFaults

/-!
# Which error code the functions on uncompressed names give (C06, C09, C80)
-/

namespace Wdns
open Outcome Spec

theorem along_le {mem : List UInt8} {o ls o'} (h : Along mem o ls o') : o ≤ o' := by
  induction h with
  | here => omega
  | label h1 h2 h3 h4 h5 ih => omega

theorem along_labels {mem : List UInt8} {o ls o'} (h : Along mem o ls o') : (∀ l ∈ ls, LabelOK l) ∧ o + (wire ls).length = o' + 1 := by
  induction h with
  | here => exact ⟨by simp, by simp [wire]⟩
  | @label o c ls o' h1 h2 h3 h4 h5 ih =>
    have hl := take_drop_length mem (o + 1) c.toNat (by omega)
    refine ⟨?_, ?_⟩
    · intro l hm
      rcases List.mem_cons.mp hm with rfl | hm
      · constructor <;> omega
      · exact ih.1 l hm
    · rw [wire_cons_length, hl]; omega

theorem copy_comes {cap : Nat} {mem : List UInt8} {eop : Nat} (hcap : 255 ≤ cap) (hm : mem.length = eop + 1)
    {o ls o'} (h : Along mem o ls o') : ∀ out total fuel, o' ≤ eop → total = out.length → total + (wire ls).length ≤ 255 → eop < fuel + o →
    ∃ out' fuel', out'.length + 1 = total + (wire ls).length ∧ eop < fuel' + o' ∧
      copyLoop cap mem eop fuel o out total = copyLoop cap mem eop fuel' o' out' out'.length := by
  induction h with
  | here =>
    intro out total fuel _ ht hw hf
    exact ⟨out, fuel, by simp [wire]; omega, hf, by rw [ht]⟩
  | @label o c ls o' h1 h2 h3 h4 h5 ih =>
    intro out total fuel ho ht hw hf
    have he := along_le h5
    have hl := take_drop_length mem (o + 1) c.toNat (by omega)
    rw [wire_cons_length, hl] at hw
    have hwp := wire_length_pos ls
    obtain ⟨f, rfl⟩ : ∃ f, fuel = f + 1 := ⟨fuel - 1, by omega⟩
    obtain ⟨out', fuel', e1, e2, e3⟩ := ih (out ++ c :: (mem.drop (o + 1)).take c.toNat) (total + 1 + c.toNat) f ho (by simp [hl]; omega) (by omega) (by omega)
    refine ⟨out', fuel', ?_, e2, ?_⟩
    · rw [wire_cons_length, hl]; omega
    · rw [copy_label h1 h2 h3, if_neg (by omega), if_neg (by omega), if_neg (by omega),
        if_neg (by omega), if_neg (by omega), if_neg (by omega), e3]

/-- What is wrong at the octet `c` at `o`, for a name copied so far to `k` octets. -/
def copyFault (eop k o : Nat) (c : UInt8) (e : Res) : Prop :=
  (e = .invalidLengthOctet ∧ 64 ≤ c.toNat) ∨
  (e = .nameOverflow ∧ 1 ≤ c.toNat ∧ c.toNat ≤ 63 ∧ 255 < k + 1 + c.toNat) ∨
  (e = .outOfBounds ∧ 1 ≤ c.toNat ∧ c.toNat ≤ 63 ∧ k + 1 + c.toNat ≤ 255 ∧ eop < o + 1 + c.toNat)

theorem copyLoop_fault {cap mem eop} (hcap : 255 ≤ cap) (hm : mem.length = eop + 1) (e : Res) :
    ∀ fuel src out total, total = out.length → total ≤ 254 → src ≤ eop → copyLoop cap mem eop fuel src out total = err e →
    ∃ ls o c, DueAt mem src ls o c ∧ total + (wire ls).length ≤ 255 ∧ copyFault eop (total + (wire ls).length) o c e := by
  intro fuel
  induction fuel with
  | zero => intro src out total _ _ _ h; simp [copyLoop] at h
  | succ fuel ih =>
    intro src out total ht h254 hs h
    cases hc : mem[src]? with
    | none => simp at hc; omega
    | some c =>
    have hw : (wire ([] : Name)).length = 1 := rfl
    by_cases h0 : c = 0
    · subst h0; rw [copy_zero hc, if_pos (by omega)] at h; cases h
    by_cases h63 : 63 < c.toNat
    · rw [copy_bad hc h63] at h; cases h
      exact ⟨[], src, c, ⟨.here, hc⟩, by omega, .inl ⟨rfl, by omega⟩⟩
    have h1 : 1 ≤ c.toNat := by rw [u8_eq_zero] at h0; omega
    rw [copy_label hc h1 (by omega)] at h
    by_cases a1 : total + 1 ≥ 255
    · rw [if_pos a1] at h; cases h
      exact ⟨[], src, c, ⟨.here, hc⟩, by omega, .inr (.inl ⟨rfl, h1, by omega, by omega⟩)⟩
    rw [if_neg a1, if_neg (by omega)] at h
    by_cases a2 : total + 1 + c.toNat ≥ 255
    · rw [if_pos a2] at h; cases h
      exact ⟨[], src, c, ⟨.here, hc⟩, by omega, .inr (.inl ⟨rfl, h1, by omega, by omega⟩)⟩
    rw [if_neg a2] at h
    by_cases a3 : src + 1 + c.toNat > eop
    · rw [if_pos a3] at h; cases h
      exact ⟨[], src, c, ⟨.here, hc⟩, by omega, .inr (.inr ⟨rfl, h1, by omega, by omega, by omega⟩)⟩
    rw [if_neg a3, if_neg (by omega), if_neg (by omega)] at h
    have hl := take_drop_length mem (src + 1) c.toNat (by omega)
    obtain ⟨ls, o, c', ⟨b1, b3⟩, b2, b4⟩ := ih _ _ _ (by simp [hl]; omega) (by omega) (by omega) h
    have hk : total + (wire ((mem.drop (src + 1)).take c.toNat :: ls)).length = total + 1 + c.toNat + (wire ls).length := by
      rw [wire_cons_length, hl]; omega
    exact ⟨_ :: ls, o, c', ⟨.label hc h1 (by omega) (by omega) b1, b3⟩, by omega, by rw [hk]; exact b4⟩

theorem copyLoop_local {cap eop : Nat} {m m' : List UInt8} (h1 : eop < m.length) (h2 : eop < m'.length) (he : ∀ i, i ≤ eop → m[i]? = m'[i]?) :
    ∀ fuel src out total, src ≤ eop → copyLoop cap m eop fuel src out total = copyLoop cap m' eop fuel src out total := by
  intro fuel
  induction fuel with
  | zero => intros; rfl
  | succ fuel ih =>
    intro src out total hs
    cases hc : m[src]? with
    | none => simp at hc; omega
    | some c =>
    have hc' : m'[src]? = some c := by rw [← he src hs]; exact hc
    by_cases h0 : c = 0
    · subst h0; rw [copy_zero hc, copy_zero hc']
    by_cases h63 : 63 < c.toNat
    · rw [copy_bad hc h63, copy_bad hc' h63]
    have h1 : 1 ≤ c.toNat := by rw [u8_eq_zero] at h0; omega
    rw [copy_label hc h1 (by omega), copy_label hc' h1 (by omega)]
    by_cases a3 : src + 1 + c.toNat > eop
    · simp only [if_pos a3]
    have ed : (m.drop (src + 1)).take c.toNat = (m'.drop (src + 1)).take c.toNat := by
      apply List.ext_getElem?
      intro i
      simp only [List.getElem?_take, List.getElem?_drop]
      split
      · exact he _ (by omega)
      · rfl
    have l1 : ¬ m.length < src + 1 + c.toNat := by omega
    have l2 : ¬ m'.length < src + 1 + c.toNat := by omega
    simp only [if_neg a3, l1, l2, if_false, ed, ih _ _ _ (show src + 1 + c.toNat ≤ eop by omega)]

/-- **C06**: why a copy is refused.  The labels are read one after the other; the first octet that is not a length of at most 63 gives
`wdns_res_invalid_length_octet` (a pointer is such an octet), the first label with which the name has more than 255 octets
`wdns_res_name_overflow`, the first label that would fit and is cut off `wdns_res_out_of_bounds`; no other code is given. -/
theorem C06_copy_faults (cap : Nat) (mem : List UInt8) (p eop src : Nat) (hcap : 255 ≤ cap) (hm : eop < mem.length) (e : Res) :
    copyUname cap mem p eop src = err e ↔
    (¬ (p ≤ src ∧ src < eop) ∧ e = .outOfBounds) ∨
    ((p ≤ src ∧ src < eop) ∧ ∃ ls o c, DueAt (mem.take (eop + 1)) src ls o c ∧ (wire ls).length ≤ 255 ∧
      ((e = .invalidLengthOctet ∧ 64 ≤ c.toNat) ∨
       (e = .nameOverflow ∧ 1 ≤ c.toNat ∧ c.toNat ≤ 63 ∧ 255 < (wire ls).length + 1 + c.toNat) ∨
       (e = .outOfBounds ∧ 1 ≤ c.toNat ∧ c.toNat ≤ 63 ∧ (wire ls).length + 1 + c.toNat ≤ 255 ∧ eop < o + 1 + c.toNat))) := by
  unfold copyUname
  by_cases hb : p ≤ src ∧ src < eop
  rotate_left
  · rw [if_pos (by omega)]
    simp only [hb, not_false_eq_true, true_and, false_and, or_false, err.injEq, eq_comm]
  have hl : (mem.take (eop + 1)).length = eop + 1 := by rw [List.length_take]; omega
  rw [if_neg (by omega), copyLoop_local hm (by omega) (m' := mem.take (eop + 1)) (fun i hi => (getElem?_take_lt (by omega)).symm) _ _ _ _ (by omega)]
  simp only [hb, and_self, not_true_eq_false, false_and, false_or, true_and]
  constructor
  · intro h
    obtain ⟨ls, o, c, h1, h2, h3⟩ := copyLoop_fault hcap hl e _ _ _ _ rfl (by simp) (by omega) h
    simp only [List.length_nil, Nat.zero_add] at h2 h3
    exact ⟨ls, o, c, h1, h2, h3⟩
  · rintro ⟨ls, o, c, ⟨h1, h2⟩, h3, h4⟩
    have hlt := getElem?_some_lt h2
    have hwp := wire_length_pos ls
    obtain ⟨out', f', e1, e2, e3⟩ := copy_comes (cap := cap) hcap hl h1 [] 0 (eop + 2) (by omega) rfl (by omega) (by omega)
    rw [e3]
    obtain ⟨f, rfl⟩ : ∃ f, f' = f + 1 := ⟨f' - 1, by omega⟩
    rcases h4 with ⟨rfl, h4⟩ | ⟨rfl, h4, h5, h6⟩ | ⟨rfl, h4, h5, h6, h7⟩
    · exact copy_bad h2 (by omega)
    · rw [copy_label h2 h4 h5]
      by_cases a1 : out'.length + 1 ≥ 255
      · rw [if_pos a1]
      · rw [if_neg a1, if_neg (by omega), if_pos (by omega)]
    · rw [copy_label h2 h4 h5, if_neg (by omega), if_neg (by omega), if_neg (by omega), if_pos (by omega)]

/-- Cases of `C06_copy_faults`. -/
example : copyUname 255 [1, 97, 0xc0, 0, 0] 0 4 0 = err .invalidLengthOctet ∧ copyUname 255 [1, 97, 5, 98, 0] 0 4 0 = err .outOfBounds ∧
    copyUname 255 ((List.replicate 4 (63 :: List.replicate 63 97)).flatten ++ [0, 0]) 0 257 0 = err .nameOverflow := by decide +kernel


/-- Every reading of labels stops: at a zero octet, at an octet that is no length, or at a label that reaches the end. -/
theorem along_stops {mem : List UInt8} : ∀ k src, mem.length ≤ src + k → src < mem.length → ∃ ls o c, DueAt mem src ls o c ∧
    (c = 0 ∨ 64 ≤ c.toNat ∨ (1 ≤ c.toNat ∧ c.toNat ≤ 63 ∧ mem.length ≤ o + 1 + c.toNat)) := by
  intro k
  induction k with
  | zero => intro src h1 h2; omega
  | succ k ih =>
    intro src h1 h2
    have hc : mem[src]? = some mem[src] := List.getElem?_eq_getElem h2
    generalize mem[src] = c at hc
    by_cases h0 : c = 0
    · exact ⟨[], src, c, ⟨.here, hc⟩, .inl h0⟩
    have h3 : 1 ≤ c.toNat := by rw [u8_eq_zero] at h0; omega
    by_cases h63 : 64 ≤ c.toNat
    · exact ⟨[], src, c, ⟨.here, hc⟩, .inr (.inl h63)⟩
    by_cases he : mem.length ≤ src + 1 + c.toNat
    · exact ⟨[], src, c, ⟨.here, hc⟩, .inr (.inr ⟨h3, by omega, he⟩)⟩
    obtain ⟨ls, o, c', ⟨a, b⟩, d⟩ := ih (src + 1 + c.toNat) (by omega) (by omega)
    exact ⟨_ :: ls, o, c', ⟨.label hc h3 (by omega) (by omega) a, b⟩, d⟩

/-! ## wdns_len_uname -/

theorem len_comes {mem : List UInt8} {eop : Nat} (hm : eop ≤ mem.length) {p ls o} (h : Along (mem.take eop) p ls o) : ∀ fuel, o ≤ eop → eop < fuel + p →
    ∃ fuel', eop < fuel' + o ∧ lenLoop mem fuel p (eop - p) = lenLoop mem fuel' o (eop - o) := by
  have hl : (mem.take eop).length = eop := by rw [List.length_take]; omega
  induction h with
  | here => intro fuel _ hf; exact ⟨fuel, hf, rfl⟩
  | @label o c ls o' h1 h2 h3 h4 h5 ih =>
    intro fuel ho hf
    have := along_le h5
    rw [getElem?_take_lt (by omega)] at h1
    obtain ⟨f, rfl⟩ : ∃ f, fuel = f + 1 := ⟨fuel - 1, by omega⟩
    obtain ⟨f', e1, e2⟩ := ih f ho (by omega)
    refine ⟨f', e1, ?_⟩
    rw [len_step (by omega) h1, if_neg (by omega), if_neg (by rw [u8_eq_zero]; omega), ← e2]
    congr 1; omega

theorem lenUname_due {mem : List UInt8} {p eop : Nat} (hm : eop ≤ mem.length) (h32 : eop - p + 1 < 2 ^ 32) {ls o c} (h : DueAt (mem.take eop) p ls o c) :
    lenUname mem p eop =
      if c = 0 then (if o + 1 - p > 255 then err .nameLen else ok (o + 1 - p))
      else if 64 ≤ c.toNat ∨ eop < o + 1 + c.toNat then err .invalidLengthOctet
      else if o + 1 + c.toNat = eop then (if eop - p + 1 > 255 then err .nameLen else ok (eop - p + 1))
      else lenUname mem p eop := by
  obtain ⟨h1, h2⟩ := h
  have hlt := getElem?_some_lt h2
  have hl : (mem.take eop).length = eop := by rw [List.length_take]; omega
  have hle := along_le h1
  rw [getElem?_take_lt (by omega)] at h2
  obtain ⟨f', e1, e2⟩ := len_comes hm h1 (eop - p + 1) (by omega) (by omega)
  obtain ⟨f, rfl⟩ : ∃ f, f' = f + 1 := ⟨f' - 1, by omega⟩
  have hu : lenUname mem p eop = (lenLoop mem (eop - p + 1) p (eop - p) >>= fun len =>
      if (eop - p + 2 ^ 32 - len) % 2 ^ 32 > 255 then err .nameLen
      else ok ((eop - p + 2 ^ 32 - len) % 2 ^ 32)) := by
    simp only [lenUname, maxlenName, show ¬ p ≥ eop by omega, if_false, Nat.mod_eq_of_lt (show eop - p < 2 ^ 32 by omega)]
  have hx := e2.trans (len_step (fuel := f) (by omega) h2)
  by_cases h0 : c = 0
  · rw [if_pos h0, hu, hx, if_neg (by rw [h0]; simp), if_pos h0, ok_bind]
    rw [show (eop - p + 2 ^ 32 - (eop - o - 1)) % 2 ^ 32 = o + 1 - p by omega]
  rw [if_neg h0]
  by_cases hb : 64 ≤ c.toNat ∨ eop < o + 1 + c.toNat
  · rw [if_pos hb, hu, hx, if_pos (by omega), err_bind]
  rw [if_neg hb]
  by_cases he : o + 1 + c.toNat = eop
  · rw [if_pos he, hu, hx, if_neg (by omega), if_neg h0, show eop - o - 1 - c.toNat = 0 by omega]
    obtain ⟨g, rfl⟩ : ∃ g, f = g + 1 := ⟨f - 1, by rw [u8_eq_zero] at h0; omega⟩
    rw [lenLoop, if_pos rfl, ok_bind]
    rw [show (eop - p + 2 ^ 32 - (2 ^ 32 - 1)) % 2 ^ 32 = eop - p + 1 by omega]
  rw [if_neg he]

/-- **C09**: what `wdns_len_uname` answers, for every buffer.  The labels are read one after the other.  If they end with a zero octet, the answer is
the size of the name; if they fill the buffer, it is one more than the size of the buffer; in both cases `wdns_res_name_len` is given instead of an
answer greater than 255.  An octet that is no length, or a label that is cut off, gives `wdns_res_invalid_length_octet`, an empty buffer
`wdns_res_overflow`. -/
theorem C09_len_exactly (mem : List UInt8) (p eop : Nat) (hm : eop ≤ mem.length) (h32 : eop - p + 1 < 2 ^ 32) (r : Outcome Nat) :
    lenUname mem p eop = r ↔
    (eop ≤ p ∧ r = err .overflow) ∨
    (∃ ls o, DueAt (mem.take eop) p ls o 0 ∧ r = (if o + 1 - p ≤ 255 then ok (o + 1 - p) else err .nameLen)) ∨
    (∃ ls o c, DueAt (mem.take eop) p ls o c ∧ 1 ≤ c.toNat ∧ c.toNat ≤ 63 ∧ o + 1 + c.toNat = eop ∧
      r = (if eop - p + 1 ≤ 255 then ok (eop - p + 1) else err .nameLen)) ∨
    (∃ ls o c, DueAt (mem.take eop) p ls o c ∧ (64 ≤ c.toNat ∨ (1 ≤ c.toNat ∧ c.toNat ≤ 63 ∧ eop < o + 1 + c.toNat)) ∧ r = err .invalidLengthOctet) := by
  have hl : (mem.take eop).length = eop := by rw [List.length_take]; omega
  have hsw : ∀ k : Nat, (if k > 255 then err .nameLen else ok k : Outcome Nat) = if k ≤ 255 then ok k else err .nameLen := by
    intro k
    by_cases hk : k ≤ 255
    · rw [if_pos hk, if_neg (by omega)]
    · rw [if_neg hk, if_pos (by omega)]
  constructor
  · rintro rfl
    by_cases hp : eop ≤ p
    · exact .inl ⟨hp, by simp [lenUname, hp]⟩
    obtain ⟨ls, o, c, h1, h2⟩ := along_stops (mem := mem.take eop) eop p (by omega) (by omega)
    have hd := lenUname_due hm h32 h1
    rcases h2 with rfl | h2 | ⟨h2, h3, h4⟩
    · exact .inr (.inl ⟨ls, o, h1, by rw [hd, if_pos rfl, hsw]⟩)
    · rw [if_neg (by rw [u8_eq_zero]; omega), if_pos (.inl h2)] at hd
      exact .inr (.inr (.inr ⟨ls, o, c, h1, .inl h2, hd⟩))
    · rw [if_neg (by rw [u8_eq_zero]; omega)] at hd
      by_cases he : eop < o + 1 + c.toNat
      · rw [if_pos (.inr he)] at hd
        exact .inr (.inr (.inr ⟨ls, o, c, h1, .inr ⟨h2, h3, he⟩, hd⟩))
      · rw [if_neg (by omega), if_pos (by omega)] at hd
        exact .inr (.inr (.inl ⟨ls, o, c, h1, h2, h3, by omega, by rw [hd, hsw]⟩))
  · rintro (⟨hp, rfl⟩ | ⟨ls, o, h1, rfl⟩ | ⟨ls, o, c, h1, h2, h3, h4, rfl⟩ | ⟨ls, o, c, h1, h2, rfl⟩)
    · simp [lenUname, hp]
    · rw [lenUname_due hm h32 h1, if_pos rfl, hsw]
    · rw [lenUname_due hm h32 h1, if_neg (by rw [u8_eq_zero]; omega), if_neg (by omega), if_pos h4, hsw]
    · rw [lenUname_due hm h32 h1, if_neg (by rw [u8_eq_zero]; omega), if_pos (by omega)]

/-- Cases of `C09_len_exactly`, one for each answer. -/
example : lenUname [1, 97, 0, 7] 0 4 = ok 3 ∧ lenUname [1, 97, 0, 7] 0 2 = ok 3 ∧ lenUname [1, 97, 2, 7] 0 4 = err .invalidLengthOctet ∧
    lenUname [1, 97, 0xc0, 7] 0 4 = err .invalidLengthOctet ∧ lenUname [1, 97, 0, 7] 2 2 = err .overflow ∧
    lenUname ((List.replicate 4 (63 :: List.replicate 63 97)).flatten ++ [0]) 0 257 = err .nameLen ∧
    lenUname (List.replicate 4 (63 :: List.replicate 63 97)).flatten 0 256 = err .nameLen := by decide +kernel

/-! ## wdns_count_labels -/

theorem count_comes {n : CName} (hm : n.len < n.data.length) {p ls o} (h : Along (n.data.take (n.len + 1)) p ls o) : ∀ fuel k, o ≤ n.len → n.len < fuel + p →
    ∃ fuel', n.len < fuel' + o ∧ countLoop n fuel p k = countLoop n fuel' o (k + ls.length) := by
  have hl : (n.data.take (n.len + 1)).length = n.len + 1 := by rw [List.length_take]; omega
  induction h with
  | here => intro fuel k _ hf; exact ⟨fuel, hf, rfl⟩
  | @label o c ls o' h1 h2 h3 h4 h5 ih =>
    intro fuel k ho hf
    have := along_le h5
    rw [getElem?_take_lt (by omega)] at h1
    obtain ⟨f, rfl⟩ : ∃ f, fuel = f + 1 := ⟨fuel - 1, by omega⟩
    obtain ⟨f', e1, e2⟩ := ih f (k + 1) ho (by omega)
    refine ⟨f', e1, ?_⟩
    rw [List.length_cons, show k + (ls.length + 1) = k + 1 + ls.length by omega, ← e2]
    simp only [countLoop, rd, h1, ok_bind]
    rw [if_neg (by rw [u8_eq_zero]; omega), if_pos h3, if_neg (by omega)]

theorem countLabels_due {n : CName} (hm : n.len < n.data.length) {ls o c} (h : DueAt (n.data.take (n.len + 1)) 0 ls o c) :
    countLabels n = if c = 0 then ok ls.length else if 64 ≤ c.toNat then err .invalidLengthOctet else if n.len < o + 1 + c.toNat then err .nameOverflow
      else countLabels n := by
  obtain ⟨h1, h2⟩ := h
  have hlt := getElem?_some_lt h2
  have hl : (n.data.take (n.len + 1)).length = n.len + 1 := by rw [List.length_take]; omega
  rw [getElem?_take_lt (by omega)] at h2
  obtain ⟨f', e1, e2⟩ := count_comes hm h1 (n.len + 1) 0 (by omega) (by omega)
  obtain ⟨f, rfl⟩ : ∃ f, f' = f + 1 := ⟨f' - 1, by omega⟩
  have hx : countLabels n = (ok c >>= fun c => if c = 0 then ok (0 + ls.length) else if c.toNat ≤ 63 then
      (if o + 1 + c.toNat > n.len then err .nameOverflow else countLoop n f (o + 1 + c.toNat) (0 + ls.length + 1)) else err .invalidLengthOctet) := by
    rw [countLabels, e2]; simp only [countLoop, rd, h2]
  by_cases h0 : c = 0
  · rw [if_pos h0, hx]; simp [h0]
  by_cases h63 : 64 ≤ c.toNat
  · rw [if_neg h0, if_pos h63, hx, ok_bind, if_neg h0, if_neg (by omega)]
  by_cases he : n.len < o + 1 + c.toNat
  · rw [if_neg h0, if_neg h63, if_pos he, hx, ok_bind, if_neg h0, if_pos (by omega), if_pos (by omega)]
  · rw [if_neg h0, if_neg h63, if_neg he]

/-- **C80**: what `wdns_count_labels` answers, for every name object behind which one more octet is readable.  The labels are read one after the
other, up to a zero octet: their number.  An octet that is no length gives `wdns_res_invalid_length_octet`, a label that goes beyond the name
`wdns_res_name_overflow`. -/
theorem C80_count_exactly (n : CName) (hm : n.len < n.data.length) (r : Outcome Nat) :
    countLabels n = r ↔
    (∃ ls o, DueAt (n.data.take (n.len + 1)) 0 ls o 0 ∧ r = ok ls.length) ∨
    (∃ ls o c, DueAt (n.data.take (n.len + 1)) 0 ls o c ∧ 64 ≤ c.toNat ∧ r = err .invalidLengthOctet) ∨
    (∃ ls o c, DueAt (n.data.take (n.len + 1)) 0 ls o c ∧ 1 ≤ c.toNat ∧ c.toNat ≤ 63 ∧ n.len < o + 1 + c.toNat ∧ r = err .nameOverflow) := by
  have hl : (n.data.take (n.len + 1)).length = n.len + 1 := by rw [List.length_take]; omega
  constructor
  · rintro rfl
    obtain ⟨ls, o, c, h1, h2⟩ := along_stops (mem := n.data.take (n.len + 1)) (n.len + 1) 0 (by omega) (by omega)
    have hd := countLabels_due hm h1
    rcases h2 with rfl | h2 | ⟨h2, h3, h4⟩
    · exact .inl ⟨ls, o, h1, by rw [hd, if_pos rfl]⟩
    · rw [if_neg (by rw [u8_eq_zero]; omega), if_pos h2] at hd
      exact .inr (.inl ⟨ls, o, c, h1, h2, hd⟩)
    · rw [if_neg (by rw [u8_eq_zero]; omega), if_neg (by omega), if_pos (by omega)] at hd
      exact .inr (.inr ⟨ls, o, c, h1, h2, h3, by omega, hd⟩)
  · rintro (⟨ls, o, h1, rfl⟩ | ⟨ls, o, c, h1, h2, rfl⟩ | ⟨ls, o, c, h1, h2, h3, h4, rfl⟩)
    · rw [countLabels_due hm h1, if_pos rfl]
    · rw [countLabels_due hm h1, if_neg (by rw [u8_eq_zero]; omega), if_pos h2]
    · rw [countLabels_due hm h1, if_neg (by rw [u8_eq_zero]; omega), if_neg (by omega), if_pos h4]

/-- Cases of `C80_count_exactly`. -/
example : countLabels ⟨3, [1, 97, 0, 9]⟩ = ok 1 ∧ countLabels ⟨2, [1, 97, 0]⟩ = ok 1 ∧ countLabels ⟨3, [1, 97, 64, 0]⟩ = err .invalidLengthOctet ∧
    countLabels ⟨3, [1, 97, 2, 0]⟩ = err .nameOverflow := by decide

/-! ## wdns_skip_name -/

theorem hops_le {mem : List UInt8} {eod o o' : Nat} (h : Hops mem eod o o') : o ≤ o' := by
  induction h with
  | here => omega
  | hop _ _ _ _ _ ih => omega

theorem skip_due {mem : List UInt8} {eod fuel src : Nat} {c : UInt8} (h : src ≤ eod) (hc : mem[src]? = some c) :
    skipLoop mem eod (fuel + 1) src = if c = 0 then ok src else if c.toNat ≥ 192 then ok (src + 1) else skipLoop mem eod fuel (src + (c.toNat + 1)) := by
  rw [skipLoop, if_pos h, rd, hc, ok_bind]

theorem skip_comes {mem : List UInt8} {eod o o' : Nat} (h : Hops mem eod o o') : ∀ fuel, eod + 1 < fuel + o →
    1 ≤ fuel → ∃ fuel', 1 ≤ fuel' ∧ skipLoop mem eod fuel o = skipLoop mem eod fuel' o' := by
  induction h with
  | here => intro fuel hf h1; exact ⟨fuel, h1, rfl⟩
  | @hop o c o' h1 h2 h3 h4 h5 ih =>
    intro fuel hf _
    obtain ⟨f, rfl⟩ : ∃ f, fuel = f + 1 := ⟨fuel - 1, by omega⟩
    rw [skip_due h1 h2, if_neg (by rw [u8_eq_zero]; omega), if_neg (by omega), show o + (c.toNat + 1) = o + 1 + c.toNat by omega]
    exact ih f (by omega) (by omega)

theorem hops_stop {mem : List UInt8} {eod : Nat} : ∀ k src, eod ≤ src + k → ∃ o, Hops mem eod src o ∧
    (eod < o ∨ (o ≤ eod ∧ mem[o]? = none) ∨ (o ≤ eod ∧ mem[o]? = some 0) ∨ (o ≤ eod ∧ ∃ c, mem[o]? = some c ∧ 192 ≤ c.toNat)) := by
  intro k
  induction k with
  | zero =>
    intro src h
    by_cases he : eod < src
    · exact ⟨src, .here, .inl he⟩
    cases hc : mem[src]? with
    | none => exact ⟨src, .here, .inr (.inl ⟨by omega, hc⟩)⟩
    | some c =>
      by_cases h0 : c = 0
      · subst h0; exact ⟨src, .here, .inr (.inr (.inl ⟨by omega, hc⟩))⟩
      by_cases h1 : 192 ≤ c.toNat
      · exact ⟨src, .here, .inr (.inr (.inr ⟨by omega, c, hc, h1⟩))⟩
      · rw [u8_eq_zero] at h0
        exact ⟨src + 1 + c.toNat, .hop (by omega) hc (by omega) (by omega) .here, .inl (by omega)⟩
  | succ k ih =>
    intro src h
    by_cases he : eod < src
    · exact ⟨src, .here, .inl he⟩
    cases hc : mem[src]? with
    | none => exact ⟨src, .here, .inr (.inl ⟨by omega, hc⟩)⟩
    | some c =>
      by_cases h0 : c = 0
      · subst h0; exact ⟨src, .here, .inr (.inr (.inl ⟨by omega, hc⟩))⟩
      by_cases h1 : 192 ≤ c.toNat
      · exact ⟨src, .here, .inr (.inr (.inr ⟨by omega, c, hc, h1⟩))⟩
      rw [u8_eq_zero] at h0
      obtain ⟨o, a, b⟩ := ih (src + 1 + c.toNat) (by omega)
      exact ⟨o, .hop (by omega) hc (by omega) (by omega) a, b⟩

theorem skipName_val {mem : List UInt8} {data eod o : Nat} (hd : data ≤ eod) (h64 : eod < 2 ^ 64) (ho : data ≤ o) (h : skipLoop mem eod (eod + 2) data = ok o) :
    skipName mem data eod = ok (min (o + 1) eod, min (o + 1) eod - data) := by
  unfold skipName
  rw [h, ok_bind]
  simp only
  have e : (if o + 1 > eod then eod else o + 1) = min (o + 1) eod := by split <;> omega
  rw [e]
  have : (min (o + 1) eod + 2 ^ 64 - data) % 2 ^ 64 = min (o + 1) eod - data := by omega
  rw [this]

/-- What skipping does where the hops lead. -/
theorem skip_at {mem : List UInt8} {data eod o : Nat} (hd : data ≤ eod) (h64 : eod < 2 ^ 64) (h : Hops mem eod data o) :
    (eod < o → skipName mem data eod = ok (eod, eod - data)) ∧
    (o ≤ eod → mem[o]? = none → skipName mem data eod = ub) ∧
    (o ≤ eod → mem[o]? = some 0 → skipName mem data eod = ok (min (o + 1) eod, min (o + 1) eod - data)) ∧
    (∀ c, o ≤ eod → mem[o]? = some c → 192 ≤ c.toNat → skipName mem data eod = ok (min (o + 2) eod, min (o + 2) eod - data)) := by
  have hle := hops_le h
  obtain ⟨f', a, b⟩ := skip_comes h (eod + 2) (by omega) (by omega)
  obtain ⟨f, rfl⟩ : ∃ f, f' = f + 1 := ⟨f' - 1, by omega⟩
  refine ⟨fun ho => ?_, fun ho hn => ?_, fun ho hn => ?_, fun c ho hn h1 => ?_⟩
  · have : skipLoop mem eod (f + 1) o = ok o := by rw [skipLoop, if_neg (by omega)]
    rw [skipName_val hd h64 hle (b.trans this), show min (o + 1) eod = eod by omega]
  · have : skipLoop mem eod (f + 1) o = ub := by rw [skipLoop, if_pos ho, rd, hn]; rfl
    unfold skipName
    rw [b.trans this, ub_bind]
  · have : skipLoop mem eod (f + 1) o = ok o := by rw [skip_due ho hn, if_pos rfl]
    exact skipName_val hd h64 hle (b.trans this)
  · have : skipLoop mem eod (f + 1) o = ok (o + 1) := by rw [skip_due ho hn, if_neg (by rw [u8_eq_zero]; omega), if_pos h1]
    exact skipName_val hd h64 (by omega) (b.trans this)


/-- **C07**: where `wdns_skip_name` stops, for all octets: it follows length octets of 1 to 191 and stops behind a zero octet, behind a pointer, or at the end
of the data; it tells how many octets that is. -/
theorem C07_skip_exactly (mem : List UInt8) (data eod e k : Nat) (hd : data ≤ eod) (hm : eod < mem.length) (h64 : eod < 2 ^ 64) :
    skipName mem data eod = ok (e, k) ↔ SkipsTo mem data eod e ∧ k = e - data := by
  constructor
  · intro h
    obtain ⟨o, a, b⟩ := hops_stop (mem := mem) (eod := eod) eod data (by omega)
    obtain ⟨s1, s2, s3, s4⟩ := skip_at hd h64 a
    rcases b with b | ⟨b, b'⟩ | ⟨b, b'⟩ | ⟨b, c, b', b''⟩
    · rw [s1 b] at h; cases h; exact ⟨⟨o, a, .inr (.inr ⟨b, rfl⟩)⟩, rfl⟩
    · simp at b'; omega
    · rw [s3 b b'] at h; cases h; exact ⟨⟨o, a, .inl ⟨b, b', rfl⟩⟩, rfl⟩
    · rw [s4 c b b' b''] at h; cases h; exact ⟨⟨o, a, .inr (.inl ⟨b, ⟨c, b', b''⟩, rfl⟩)⟩, rfl⟩
  · rintro ⟨⟨o, a, b⟩, rfl⟩
    obtain ⟨s1, s2, s3, s4⟩ := skip_at hd h64 a
    rcases b with ⟨b, b', rfl⟩ | ⟨b, ⟨c, b', b''⟩, rfl⟩ | ⟨b, rfl⟩
    · exact s3 b b'
    · exact s4 c b b' b''
    · exact s1 b

/-- **C07**: exactly when `wdns_skip_name` reads behind the data: the length octets lead just to its end. -/
theorem C07_skip_leaves (mem : List UInt8) (data : Nat) (hd : data ≤ mem.length) (h64 : mem.length < 2 ^ 64) :
    skipName mem data mem.length = ub ↔ Hops mem mem.length data mem.length := by
  constructor
  · intro h
    obtain ⟨o, a, b⟩ := hops_stop (mem := mem) (eod := mem.length) mem.length data (by omega)
    obtain ⟨s1, s2, s3, s4⟩ := skip_at hd h64 a
    rcases b with b | ⟨b, b'⟩ | ⟨b, b'⟩ | ⟨b, c, b', b''⟩
    · rw [s1 b] at h; cases h
    · simp at b'
      rwa [show o = mem.length by omega] at a
    · rw [s3 b b'] at h; cases h
    · rw [s4 c b b' b''] at h; cases h
  · intro h
    exact (skip_at hd h64 h).2.1 (Nat.le_refl _) (by simp)

/-- Cases of `C07_skip_exactly` and `C07_skip_leaves`. -/
example : skipName [1, 97, 0, 9, 9] 0 4 = ok (3, 3) ∧ skipName [1, 97, 0xc0, 0, 9] 0 4 = ok (4, 4) ∧ skipName [100, 97, 0xc0, 0, 9] 1 4 = ok (4, 3) ∧
    skipName [1, 97, 2, 98, 99] 0 5 = ub := by decide

end Wdns
