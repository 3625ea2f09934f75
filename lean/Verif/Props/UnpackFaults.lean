import Verif.Spec.UnpackFaults
import Verif.Props.Unpack

/-!
# Why an encoded name is rejected (C02)
-/

namespace Wdns
open Outcome Spec

/-- The decoder goes where `Reaches` says. -/
theorem unpack_comes {cap : Nat} {mem : List UInt8} {p eop : Nat} (hcap : 255 ≤ cap) (hm : mem.length = eop + 1)
    {o ls o'} (h : Reaches mem p o ls o') : ∀ out total, o' ≤ eop → total = out.length → total + (wire ls).length ≤ 255 →
    ∃ out', out'.length + 1 = total + (wire ls).length ∧ ∃ k, ∀ fuel,
      unpackLoop cap mem p eop (fuel + k) o out total = unpackLoop cap mem p eop fuel o' out' out'.length := by
  have hend : ∀ {o ls o'}, Reaches mem p o ls o' → o' ≤ eop → o ≤ eop := by
    intro o ls o' h ho
    cases h with
    | here => exact ho
    | label h1 => have := getElem?_some_lt h1; omega
    | ptr h1 => have := getElem?_some_lt h1; omega
  induction h with
  | here =>
    intro out total _ ht hw
    exact ⟨out, by simp [wire]; omega, 0, fun fuel => by rw [ht]; rfl⟩
  | @label o c ls o' h1 h2 h3 h4 h5 ih =>
    intro out total ho ht hw
    have he := hend h5 ho
    have hl := take_drop_length mem (o + 1) c.toNat (by omega)
    rw [wire_cons_length, hl] at hw
    have hwp := wire_length_pos ls
    obtain ⟨out', e1, k, e2⟩ := ih (out ++ c :: (mem.drop (o + 1)).take c.toNat) (total + 1 + c.toNat) ho (by simp [hl]; omega) (by omega)
    refine ⟨out', ?_, k + 1, ?_⟩
    · rw [wire_cons_length, hl]; omega
    · intro fuel
      rw [← Nat.add_assoc, unpack_label h1 h2 h3, if_neg (by omega), if_neg (by omega), if_neg (by omega),
        if_neg (by omega), if_neg (by omega), if_neg (by omega), e2]
  | @ptr o hi lo ls o' h1 h2 h3 h4 h5 ih =>
    intro out total ho ht hw
    have l3 := getElem?_some_lt h3
    obtain ⟨out', e1, k, e2⟩ := ih out total ho ht hw
    refine ⟨out', e1, k + 1, fun fuel => ?_⟩
    rw [← Nat.add_assoc, unpack_ptr h1 h2, if_neg (by omega)]
    simp only [h3]
    rw [if_neg (by omega), e2]

/-- Which fault goes with which code. -/
def faultOf (mem : List UInt8) (k : Nat) (ls : Name) (o : Nat) (c : UInt8) (base : Nat) : Res → Prop
  | .invalidLengthOctet => 64 ≤ c.toNat ∧ c.toNat ≤ 191
  | .invalidCompressionPointer => ∃ lo, 192 ≤ c.toNat ∧ mem[o + 1]? = some lo ∧ o ≤ base + ((c.toNat % 64) * 256 + lo.toNat)
  | .nameOverflow => 1 ≤ c.toNat ∧ c.toNat ≤ 63 ∧ 255 < k + (wire ls).length + 1 + c.toNat
  | .outOfBounds => (192 ≤ c.toNat ∧ o + 1 = mem.length) ∨ (1 ≤ c.toNat ∧ c.toNat ≤ 63 ∧ k + (wire ls).length + 1 + c.toNat ≤ 255 ∧ mem.length ≤ o + 1 + c.toNat)
  | _ => False

theorem unpackLoop_fault {cap mem p eop} (hcap : 255 ≤ cap) (hm : mem.length = eop + 1) (e : Res) :
    ∀ fuel src out total, total = out.length → total ≤ 254 → src ≤ eop → unpackLoop cap mem p eop fuel src out total = err e →
    ∃ ls o c, Reaches mem p src ls o ∧ total + (wire ls).length ≤ 255 ∧ mem[o]? = some c ∧ faultOf mem total ls o c p e := by
  intro fuel
  induction fuel with
  | zero => intro src out total _ _ _ h; simp [unpackLoop] at h
  | succ fuel ih =>
    intro src out total ht h254 hs h
    cases hc : mem[src]? with
    | none => simp at hc; omega
    | some c =>
    have hw : (wire ([] : Name)).length = 1 := rfl
    rcases byte_cases c with rfl | ⟨h1, h2⟩ | ⟨h1, h2⟩ | h1
    · rw [unpack_zero hc, if_pos (by omega)] at h; cases h
    · rw [unpack_label hc h1 h2] at h
      by_cases a1 : total + 1 ≥ 255
      · rw [if_pos a1] at h; cases h
        exact ⟨[], src, c, .here, by omega, hc, h1, h2, by omega⟩
      rw [if_neg a1, if_neg (by omega)] at h
      by_cases a2 : total + 1 + c.toNat ≥ 255
      · rw [if_pos a2] at h; cases h
        exact ⟨[], src, c, .here, by omega, hc, h1, h2, by omega⟩
      rw [if_neg a2] at h
      by_cases a3 : src + 1 + c.toNat > eop
      · rw [if_pos a3] at h; cases h
        exact ⟨[], src, c, .here, by omega, hc, .inr ⟨h1, h2, by omega, by omega⟩⟩
      rw [if_neg a3, if_neg (by omega), if_neg (by omega)] at h
      have hl := take_drop_length mem (src + 1) c.toNat (by omega)
      obtain ⟨ls, o, c', b1, b2, b3, b4⟩ := ih _ _ _ (by simp [hl]; omega) (by omega) (by omega) h
      refine ⟨_ :: ls, o, c', .label hc h1 h2 (by omega) b1, by rw [wire_cons_length, hl]; omega, b3, ?_⟩
      have hk : total + (wire ((mem.drop (src + 1)).take c.toNat :: ls)).length = total + 1 + c.toNat + (wire ls).length := by
        rw [wire_cons_length, hl]; omega
      cases e <;> simp only [faultOf, hk] at b4 ⊢ <;> exact b4
    · rw [unpack_bad hc h1 h2] at h; cases h
      exact ⟨[], src, c, .here, by omega, hc, by omega, by omega⟩
    · rw [unpack_ptr hc h1] at h
      by_cases a1 : src + 1 > eop
      · rw [if_pos a1] at h; cases h
        exact ⟨[], src, c, .here, by omega, hc, .inl ⟨h1, by omega⟩⟩
      rw [if_neg a1] at h
      cases hlo : mem[src + 1]? with
      | none => simp at hlo; omega
      | some lo =>
        simp only [hlo] at h
        by_cases a2 : p + ((c.toNat % 64) * 256 + lo.toNat) > eop ∨ src ≤ p + ((c.toNat % 64) * 256 + lo.toNat)
        · rw [if_pos a2] at h; cases h
          exact ⟨[], src, c, .here, by omega, hc, lo, h1, hlo, by omega⟩
        rw [if_neg a2] at h
        obtain ⟨ls, o, c', b1, b2, b3, b4⟩ := ih _ _ _ ht h254 (by omega) h
        exact ⟨ls, o, c', .ptr hc h1 hlo (by omega) b1, b2, b3, b4⟩

theorem unpackLoop_fault_conv {cap mem p eop} (hcap : 255 ≤ cap) (hm : mem.length = eop + 1) (e : Res) {src ls o c}
    (hr : Reaches mem p src ls o) (hw : (wire ls).length ≤ 255) (hc : mem[o]? = some c) (hf : faultOf mem 0 ls o c p e) :
    ∃ k, ∀ fuel, unpackLoop cap mem p eop (fuel + 1 + k) src [] 0 = err e := by
  have hlt := getElem?_some_lt hc
  have hwp := wire_length_pos ls
  obtain ⟨out', e1, k, e2⟩ := unpack_comes (cap := cap) hcap hm hr [] 0 (by omega) rfl (by omega)
  refine ⟨k, fun fuel => ?_⟩
  rw [e2]
  cases e <;> simp only [faultOf] at hf
  case invalidLengthOctet => rw [unpack_bad hc (by omega) (by omega)]
  case invalidCompressionPointer =>
    obtain ⟨lo, h1, h2, h3⟩ := hf
    have := getElem?_some_lt h2
    rw [unpack_ptr hc h1, if_neg (by omega)]
    simp only [h2]
    rw [if_pos (.inr h3)]
  case nameOverflow =>
    obtain ⟨h1, h2, h3⟩ := hf
    rw [unpack_label hc h1 h2]
    by_cases a1 : out'.length + 1 ≥ 255
    · rw [if_pos a1]
    · rw [if_neg a1, if_neg (by omega), if_pos (by omega)]
  case outOfBounds =>
    rcases hf with ⟨h1, h2⟩ | ⟨h1, h2, h3, h4⟩
    · rw [unpack_ptr hc h1, if_pos (by omega)]
    · rw [unpack_label hc h1 h2, if_neg (by omega), if_neg (by omega), if_neg (by omega), if_pos (by omega)]

theorem unpackName_fault_iff {cap mem p eop src} (hcap : 255 ≤ cap) (hm : mem.length = eop + 1) (hp : p ≤ src) (hs : src < eop) (e : Res) :
    unpackName cap mem p eop src = err e ↔ ∃ ls o c, Reaches mem p src ls o ∧ (wire ls).length ≤ 255 ∧ mem[o]? = some c ∧ faultOf mem 0 ls o c p e := by
  constructor
  · intro h
    unfold unpackName at h
    rw [if_neg (by omega)] at h
    obtain ⟨ls, o, c, h1, h2, h3, h4⟩ := unpackLoop_fault hcap hm e _ _ _ _ rfl (by simp) (by omega) h
    exact ⟨ls, o, c, h1, by simpa using h2, h3, h4⟩
  · rintro ⟨ls, o, c, h1, h2, h3, h4⟩
    obtain ⟨k, hk⟩ := unpackLoop_fault_conv hcap hm e h1 h2 h3 h4
    have hb := (C03_unpack_terminates cap mem p eop src).2 (256 * (eop + 2) + 1 + k) (by omega) hs hp
    rw [← hb, hk]

theorem unpackName_take {cap : Nat} {mem : List UInt8} {p eop src : Nat} (hm : eop < mem.length) :
    unpackName cap mem p eop src = unpackName cap (mem.take (eop + 1)) p eop src := by
  unfold unpackName
  split
  · rfl
  · exact unpackLoop_local (by omega) (by rw [List.length_take]; omega) (fun i _ hi => (getElem?_take_lt (by omega)).symm) _ _ _ _ (by omega) (by omega)

/-- **C02**: why a name is rejected.  The decoder follows the labels and pointers; the first fault decides the code, and every code is given for exactly its fault. -/
theorem C02_unpack_faults (cap : Nat) (mem : List UInt8) (p eop src : Nat) (hcap : 255 ≤ cap) (hm : eop < mem.length) (hp : p ≤ src) (hs : src < eop) (e : Res) :
    unpackName cap mem p eop src = err e ↔ NameFault (mem.take (eop + 1)) p src e := by
  rw [unpackName_take hm, unpackName_fault_iff hcap (by rw [List.length_take]; omega) hp hs]
  unfold NameFault
  constructor
  · rintro ⟨ls, o, c, h1, h2, h3, h4⟩
    cases e <;> simp only [faultOf, Nat.zero_add] at h4
    case outOfBounds => exact .inr (.inr (.inr ⟨rfl, ls, o, c, ⟨h1, h2, h3⟩, h4⟩))
    case invalidCompressionPointer => obtain ⟨lo, h4⟩ := h4; exact .inr (.inl ⟨rfl, ls, o, c, lo, ⟨h1, h2, h3⟩, h4⟩)
    case invalidLengthOctet => exact .inl ⟨rfl, ls, o, c, ⟨h1, h2, h3⟩, h4⟩
    case nameOverflow => exact .inr (.inr (.inl ⟨rfl, ls, o, c, ⟨h1, h2, h3⟩, h4⟩))
  · rintro (⟨rfl, ls, o, c, ⟨h1, h2, h3⟩, h4⟩ | ⟨rfl, ls, o, c, lo, ⟨h1, h2, h3⟩, h4⟩ | ⟨rfl, ls, o, c, ⟨h1, h2, h3⟩, h4⟩ | ⟨rfl, ls, o, c, ⟨h1, h2, h3⟩, h4⟩)
    · exact ⟨ls, o, c, h1, h2, h3, h4⟩
    · exact ⟨ls, o, c, h1, h2, h3, lo, h4⟩
    · exact ⟨ls, o, c, h1, h2, h3, by simpa only [faultOf, Nat.zero_add] using h4⟩
    · exact ⟨ls, o, c, h1, h2, h3, by simpa only [faultOf, Nat.zero_add] using h4⟩

/-- Cases of `C02_unpack_faults`: an octet 64, a pointer to itself, four labels with 63 octets, a label that is cut off. -/
example : NameFault [1, 97, 64, 0] 0 0 .invalidLengthOctet ∧ NameFault [1, 97, 0xc0, 2, 0] 0 0 .invalidCompressionPointer ∧
    NameFault (((List.replicate 4 (63 :: List.replicate 63 97)).flatten ++ [0, 0] : List UInt8).take 258) 0 0 .nameOverflow ∧ NameFault [1, 97, 5, 98, 99] 0 0 .outOfBounds :=
  ⟨(C02_unpack_faults 255 [1, 97, 64, 0] 0 3 0 (by decide) (by decide) (by decide) (by decide) _).1 (by decide),
    (C02_unpack_faults 255 [1, 97, 0xc0, 2, 0] 0 4 0 (by decide) (by decide) (by decide) (by decide) _).1 (by decide),
    (C02_unpack_faults 255 ((List.replicate 4 (63 :: List.replicate 63 97)).flatten ++ [0, 0]) 0 257 0 (by decide) (by decide +kernel) (by decide) (by decide) .nameOverflow).1 (by decide +kernel),
    (C02_unpack_faults 255 [1, 97, 5, 98, 99] 0 4 0 (by decide) (by decide) (by decide) (by decide) _).1 (by decide)⟩

end Wdns
