import Verif.Spec.Faults
import Verif.Props.UnpackFaults
import Verif.Props.Exact

/-!
# Why a packet is rejected (C101)
-/

namespace Wdns
open Outcome Spec

/-- The check at the end of the rdata. -/
def endCheck (st : PState) : Outcome CRdata := if st.bytes ≠ 0 then err .outOfBounds else ok ⟨st.out.length % 65536, st.out⟩

theorem rd_octet {mem : List UInt8} {i : Nat} (h : i < mem.length) : ∃ b : UInt8, rd mem i = ok b ∧ b.toNat = octetAt mem i :=
  ⟨mem[i], rd_of_lt h, by simp [octetAt, List.getD_eq_getElem?_getD, List.getElem?_eq_getElem h]⟩

theorem pCopy_at {mem : List UInt8} {i e x : Nat} {out : List UInt8} (hi : i ≤ e) (hm : e ≤ mem.length) :
    pCopy mem ⟨i, e - i, out⟩ x = if e < i + x then err .parseError else ok ⟨i + x, e - (i + x), out ++ (mem.drop i).take x⟩ := by
  unfold pCopy
  simp only
  by_cases h : e < i + x
  · rw [if_pos (by omega), if_pos h]
  · rw [if_neg (by omega), if_neg h, rdN_ok (by omega), ok_bind, Nat.sub_sub]

theorem stringRun_iff {mem : List UInt8} {e i j : Nat} : StringRun mem e i j ↔ i = j ∨ i < e ∧ i + 1 + octetAt mem i ≤ e ∧ StringRun mem e (i + 1 + octetAt mem i) j := by
  constructor
  · intro h
    cases h with
    | here => exact .inl rfl
    | step h1 h2 h3 => exact .inr ⟨h1, h2, h3⟩
  · rintro (rfl | ⟨h1, h2, h3⟩)
    · exact .here
    · exact .step h1 h2 h3

theorem windowRun_iff {mem : List UInt8} {e i j : Nat} : WindowRun mem e i j ↔ i = j ∨ 1 ≤ octetAt mem (i + 1) ∧ octetAt mem (i + 1) ≤ 32 ∧
    i + 2 + octetAt mem (i + 1) ≤ e ∧ WindowRun mem e (i + 2 + octetAt mem (i + 1)) j := by
  constructor
  · intro h
    cases h with
    | here => exact .inl rfl
    | step h1 h2 h3 h4 => exact .inr ⟨h1, h2, h3, h4⟩
  · rintro (rfl | ⟨h1, h2, h3, h4⟩)
    · exact .here
    · exact .step h1 h2 h3 h4

theorem pRepstring_fault {mem : List UInt8} {e : Nat} (hm : e ≤ mem.length) (c : Res) : ∀ fuel i out, i ≤ e → e - i < fuel →
    ((pRepstring mem fuel ⟨i, e - i, out⟩ >>= endCheck) = err c ↔ c = .parseError ∧ ∃ j, StringRun mem e i j ∧ j < e ∧ e < j + 1 + octetAt mem j)
  | 0, i, out, _, h => by omega
  | fuel + 1, i, out, hi, hf => by
    rw [pRepstring]
    simp only
    by_cases h0 : i = e
    · subst h0
      rw [if_neg (by omega), ok_bind, endCheck, if_neg (by simp)]
      refine ⟨by simp, ?_⟩
      rintro ⟨-, j, h1, h2, -⟩
      rw [stringRun_iff] at h1; omega
    · obtain ⟨b, hb, hv⟩ := rd_octet (show i < mem.length by omega)
      rw [if_pos (by omega), hb, ok_bind, pCopy_at hi hm, hv]
      by_cases hk : e < i + (octetAt mem i + 1)
      · rw [if_pos hk, err_bind, err_bind, err.injEq]
        constructor
        · rintro rfl; exact ⟨rfl, i, .here, by omega, by omega⟩
        · rintro ⟨rfl, -⟩; rfl
      · rw [if_neg hk, ok_bind, pRepstring_fault hm c fuel _ _ (by omega) (by omega)]
        refine and_congr_right fun _ => ⟨?_, ?_⟩
        · rintro ⟨j, h1, h2⟩
          exact ⟨j, .step (by omega) (by omega) (by rw [show i + 1 + octetAt mem i = i + (octetAt mem i + 1) by omega]; exact h1), h2⟩
        · rintro ⟨j, h1, h2⟩
          rcases stringRun_iff.mp h1 with rfl | ⟨_, _, h3⟩
          · omega
          · exact ⟨j, by rw [show i + (octetAt mem i + 1) = i + 1 + octetAt mem i by omega]; exact h3, h2⟩

theorem pBitmap_fault {mem : List UInt8} {e : Nat} (hm : e ≤ mem.length) (c : Res) : ∀ fuel i out, i ≤ e → e - i < fuel →
    ((pBitmap mem fuel ⟨i, e - i, out⟩ >>= endCheck) = err c ↔ c = .outOfBounds ∧ ∃ j, WindowRun mem e i j ∧ j < e ∧
      (j + 1 = e ∨ octetAt mem (j + 1) = 0 ∨ 32 < octetAt mem (j + 1) ∨ e < j + 2 + octetAt mem (j + 1)))
  | 0, i, out, _, h => by omega
  | fuel + 1, i, out, hi, hf => by
    rw [pBitmap]
    simp only
    have herr : (err Res.outOfBounds : Outcome CRdata) = err c ↔ c = .outOfBounds := by rw [err.injEq]; exact eq_comm
    by_cases h0 : i = e
    · subst h0
      rw [if_neg (by omega), ok_bind, endCheck, if_neg (by simp)]
      refine ⟨by simp, ?_⟩
      rintro ⟨-, j, h1, h2, -⟩
      rw [windowRun_iff] at h1; omega
    by_cases h1 : i + 1 = e
    · rw [if_neg (by omega), ok_bind, endCheck, if_pos (by simp; omega), herr]
      exact ⟨fun h => ⟨h, i, .here, by omega, .inl h1⟩, fun h => h.1⟩
    · obtain ⟨b, hb, hv⟩ := rd_octet (show i + 1 < mem.length by omega)
      rw [if_pos (by omega), hb, ok_bind, hv]
      by_cases hk : 1 ≤ octetAt mem (i + 1) ∧ octetAt mem (i + 1) ≤ 32
      rotate_left
      · rw [if_pos (by omega), err_bind, herr]
        exact ⟨fun h => ⟨h, i, .here, by omega, by omega⟩, fun h => h.1⟩
      rw [if_neg (by omega)]
      by_cases hl : octetAt mem (i + 1) ≤ e - i - 2
      rotate_left
      · rw [if_neg hl, err_bind, herr]
        exact ⟨fun h => ⟨h, i, .here, by omega, by omega⟩, fun h => h.1⟩
      rw [if_pos hl, pCopy_at hi hm, if_neg (by omega), ok_bind, pBitmap_fault hm c fuel _ _ (by omega) (by omega)]
      refine and_congr_right fun _ => ⟨?_, ?_⟩
      · rintro ⟨j, a1, a2⟩
        exact ⟨j, .step hk.1 hk.2 (by omega) (by rw [show i + 2 + octetAt mem (i + 1) = i + (2 + octetAt mem (i + 1)) by omega]; exact a1), a2⟩
      · rintro ⟨j, a1, a2⟩
        rcases windowRun_iff.mp a1 with rfl | ⟨_, _, _, a3⟩
        · omega
        · exact ⟨j, by rw [show i + (2 + octetAt mem (i + 1)) = i + 2 + octetAt mem (i + 1) by omega]; exact a3, a2⟩

/-- What is wrong with the SvcParam at `j`. -/
def ParamFault (mem : List UInt8) (e j : Nat) (c : Res) : Prop :=
  (c = .parseError ∧ j < e ∧ e < j + 4) ∨ (c = .outOfBounds ∧ j + 4 ≤ e ∧ e < j + paramSize mem j) ∨
  (c = .parseError ∧ j + 4 ≤ e ∧ j + paramSize mem j ≤ e ∧ ¬ ValueIn mem (u16At mem j) (u16At mem (j + 2)) (j + 4) ∧
    ¬ (u16At mem j = 1 ∧ RunsOff mem (j + 4 + u16At mem (j + 2)) (j + 4)))

theorem pSvcparams_fault {mem : List UInt8} {e : Nat} (hm : e ≤ mem.length) (c : Res) : ∀ fuel i out, i ≤ e → e - i < fuel →
    (pSvcparams mem fuel ⟨i, e - i, out⟩ = err c ↔ ∃ j, SvcRun mem e i j ∧ ParamFault mem e j c)
  | 0, i, out, _, h => by omega
  | fuel + 1, i, out, hi, hf => by
    by_cases h0 : i = e
    · subst h0
      have hr : pSvcparams mem (fuel + 1) ⟨i, i - i, out⟩ = ok ⟨i, 0, out⟩ := by
        rw [pSvcparams]; simp
      rw [hr]
      refine ⟨by simp, ?_⟩
      rintro ⟨j, h1, h2⟩
      have : j = i := by rw [svcRun_iff] at h1; omega
      subst this
      rcases h2 with ⟨_, h, _⟩ | ⟨_, h, _⟩ | ⟨_, h, _⟩ <;> omega
    by_cases h4 : i + 4 ≤ e
    rotate_left
    · have hr : pSvcparams mem (fuel + 1) ⟨i, e - i, out⟩ = err .parseError := by
        rw [pSvcparams]; simp only; rw [if_pos (by omega), if_pos (by omega)]
      rw [hr, err.injEq]
      constructor
      · rintro rfl; exact ⟨i, .here, .inl ⟨rfl, by omega, by omega⟩⟩
      · rintro ⟨j, h1, h2⟩
        have : j = i := by rw [svcRun_iff] at h1; omega
        subst this
        rcases h2 with ⟨h, _⟩ | ⟨_, h, _⟩ | ⟨h, _⟩
        · exact h.symm
        · omega
        · exact h.symm
    rw [svc_step_eq h4 hm]
    by_cases hk : paramSize mem i > e - i
    · rw [if_pos hk, err.injEq]
      constructor
      · rintro rfl; exact ⟨i, .here, .inr (.inl ⟨rfl, h4, by omega⟩)⟩
      · rintro ⟨j, h1, h2⟩
        have : j = i := by rw [svcRun_iff] at h1; omega
        subst this
        rcases h2 with ⟨_, h, _⟩ | ⟨h, _⟩ | ⟨_, _, h, _⟩
        · omega
        · exact h.symm
        · omega
    rw [if_neg hk]
    obtain ⟨v1, v2, v3⟩ := validate_iff (mem := mem) (key := u16At mem i) (n := u16At mem (i + 2)) (v := i + 4)
    rcases v3 with hv | hv | hv
    · have hval := v1.mp hv
      rw [hv, ok_bind, if_neg (by simp)]
      have hne : ¬ ParamFault mem e i c := by
        rintro (⟨_, h, _⟩ | ⟨_, _, h⟩ | ⟨_, _, _, h, _⟩)
        · omega
        · omega
        · exact h hval
      by_cases hp : paramSize mem i = 0
      · have hs : StallAt mem e i := ⟨h4, stall_zero hp, by rw [← stall_zero hp]; exact hval⟩
        rw [hp, Nat.add_zero, pSvcparams_stall hm hs]
        refine ⟨by simp, ?_⟩
        rintro ⟨j, h1, h2⟩
        have := svcRun_stall h1 hp
        subst this
        exact absurd h2 hne
      · rw [pSvcparams_fault hm c fuel _ _ (by omega) (by omega)]
        constructor
        · rintro ⟨j, h1, h2⟩; exact ⟨j, .step h4 (by omega) hval h1, h2⟩
        · rintro ⟨j, h1, h2⟩
          rcases svcRun_iff.mp h1 with rfl | ⟨_, _, _, h3⟩
          · exact absurd h2 hne
          · exact ⟨j, h3, h2⟩
    · have hnv : ¬ ValueIn mem (u16At mem i) (u16At mem (i + 2)) (i + 4) := fun h => by rw [v1.mpr h] at hv; cases hv
      have hno : ¬ (u16At mem i = 1 ∧ RunsOff mem (i + 4 + u16At mem (i + 2)) (i + 4)) := fun h => by rw [v2.mpr h] at hv; cases hv
      rw [hv, ok_bind, if_pos rfl, err.injEq]
      constructor
      · rintro rfl; exact ⟨i, .here, .inr (.inr ⟨rfl, h4, by omega, hnv, hno⟩)⟩
      · rintro ⟨j, h1, h2⟩
        rcases svcRun_iff.mp h1 with rfl | ⟨_, _, h3, _⟩
        · rcases h2 with ⟨h, _⟩ | ⟨_, _, h⟩ | ⟨h, _⟩
          · exact h.symm
          · omega
          · exact h.symm
        · exact absurd h3 hnv
    · have hoff := v2.mp hv
      have hnv : ¬ ValueIn mem (u16At mem i) (u16At mem (i + 2)) (i + 4) := fun h => by rw [v1.mpr h] at hv; cases hv
      rw [hv, ub_bind]
      refine ⟨by simp, ?_⟩
      rintro ⟨j, h1, h2⟩
      rcases svcRun_iff.mp h1 with rfl | ⟨_, _, h3, _⟩
      · rcases h2 with ⟨_, h, _⟩ | ⟨_, _, h⟩ | ⟨_, _, _, _, h⟩
        · omega
        · omega
        · exact absurd hoff h
      · exact absurd h3 hnv

/-- Fields that are neither names nor extend to the end. -/
theorem pField_fault {mem : List UInt8} {eop o e : Nat} {t : Rdf} {out : List UInt8} (hm : e ≤ mem.length) (ho : o < e) (hN : ¬ IsName t) (hT : ¬ Terminal t) (c : Res) :
    pField mem 0 eop t ⟨o, e - o, out⟩ = err c ↔ FieldFault mem e t o c := by
  have hfix : ∀ k, fixedSize t = some k → (pCopy mem ⟨o, e - o, out⟩ k = err c ↔ FieldFault mem e t o c) := by
    intro k hk
    rw [pCopy_at (by omega) hm]
    constructor
    · intro h
      by_cases hlt : e < o + k
      · rw [if_pos hlt, err.injEq] at h; subst h; exact .fixed hk hlt
      · rw [if_neg hlt] at h; cases h
    · intro h
      cases h with
      | fixed hk' hlt => rw [hk] at hk'; cases hk'; rw [if_pos hlt]
      | string h => rcases h with rfl | rfl | rfl <;> cases hk
      | _ => cases hk
  obtain ⟨b, hb, hv⟩ := rd_octet (show o < mem.length by omega)
  have hstr : (t = .string ∨ t = .salt ∨ t = .hash) → ((rd mem o >>= fun oclen => pCopy mem ⟨o, e - o, out⟩ (oclen.toNat + 1)) = err c ↔ FieldFault mem e t o c) := by
    intro ht
    rw [hb, ok_bind, pCopy_at (by omega) hm, hv]
    constructor
    · intro h
      by_cases hlt : e < o + (octetAt mem o + 1)
      · rw [if_pos hlt, err.injEq] at h; subst h; exact .string ht (by omega)
      · rw [if_neg hlt] at h; cases h
    · intro h
      cases h with
      | fixed hk => rcases ht with rfl | rfl | rfl <;> cases hk
      | string _ h => rw [if_pos (by omega)]
      | _ => rcases ht with h | h | h <;> cases h
  cases t
  case name => exact absurd trivial hN
  case uname => exact absurd trivial hN
  case bytes => exact absurd trivial hT
  case bytesB64 => exact absurd trivial hT
  case bytesStr => exact absurd trivial hT
  case ednsOptRdata => exact absurd trivial hT
  case repstring => exact absurd trivial hT
  case typeBitmap => exact absurd trivial hT
  case svcparams => exact absurd trivial hT
  case string => exact hstr (.inl rfl)
  case salt => exact hstr (.inr (.inl rfl))
  case hash => exact hstr (.inr (.inr rfl))
  case ipv6prefix =>
    simp only [pField, hb, ok_bind, hv]
    have harith : octetAt mem o ≤ 128 → (128 - octetAt mem o) / 8 + (if octetAt mem o % 8 ≠ 0 then 1 else 0) = (128 - octetAt mem o + 7) / 8 := by
      intro h; split <;> omega
    by_cases h128 : octetAt mem o > 128
    · rw [if_pos h128, err.injEq]
      constructor
      · rintro rfl; exact .prefixLength h128
      · intro h
        cases h with
        | fixed hk => cases hk
        | string h => rcases h with h | h | h <;> cases h
        | prefixLength => rfl
        | prefixRest h => omega
    · rw [if_neg h128, pCopy_at (by omega) hm, harith (by omega)]
      constructor
      · intro h
        by_cases hlt : e < o + ((128 - octetAt mem o + 7) / 8 + 1)
        · rw [if_pos hlt, err.injEq] at h; subst h; exact .prefixRest (by omega) (by omega)
        · rw [if_neg hlt] at h; cases h
      · intro h
        cases h with
        | fixed hk => cases hk
        | string h => rcases h with h | h | h <;> cases h
        | prefixLength h => omega
        | prefixRest _ h => rw [if_pos (by omega)]
  case int8 => exact hfix 1 rfl
  case int16 => exact hfix 2 rfl
  case rrtype => exact hfix 2 rfl
  case int32 => exact hfix 4 rfl
  case ipv4 => exact hfix 4 rfl
  case ipv6 => exact hfix 16 rfl
  case eui48 => exact hfix 6 rfl
  case eui64 => exact hfix 8 rfl

/-- Fields that extend to the end. -/
theorem pTerminal_fault {mem : List UInt8} {eop o e : Nat} {t : Rdf} {out : List UInt8} (hm : e ≤ mem.length) (ho : o < e) (hT : Terminal t) (c : Res) :
    (pField mem 0 eop t ⟨o, e - o, out⟩ >>= endCheck) = err c ↔ FieldFault mem e t o c := by
  have hall : (t = .bytes ∨ t = .bytesB64 ∨ t = .bytesStr ∨ t = .ednsOptRdata) → ((pCopy mem ⟨o, e - o, out⟩ (e - o) >>= endCheck) = err c ↔ FieldFault mem e t o c) := by
    intro ht
    rw [pCopy_at (by omega) hm, if_neg (by omega), ok_bind, endCheck, if_neg (by simp; omega)]
    refine ⟨by simp, fun h => ?_⟩
    cases h with
    | fixed hk => rcases ht with rfl | rfl | rfl | rfl <;> cases hk
    | string h => rcases ht with rfl | rfl | rfl | rfl <;> rcases h with h | h | h <;> cases h
    | _ => rcases ht with h | h | h | h <;> cases h
  cases t
  case bytes => exact hall (.inl rfl)
  case bytesB64 => exact hall (.inr (.inl rfl))
  case bytesStr => exact hall (.inr (.inr (.inl rfl)))
  case ednsOptRdata => exact hall (.inr (.inr (.inr rfl)))
  case repstring =>
    simp only [pField]
    rw [pRepstring_fault hm c _ _ _ (by omega) (by omega)]
    constructor
    · rintro ⟨rfl, j, h1, h2, h3⟩; exact .strings h1 h2 h3
    · intro h
      cases h with
      | fixed hk => cases hk
      | string h => rcases h with h | h | h <;> cases h
      | strings h1 h2 h3 => exact ⟨rfl, _, h1, h2, h3⟩
  case typeBitmap =>
    simp only [pField]
    rw [pBitmap_fault hm c _ _ _ (by omega) (by omega)]
    constructor
    · rintro ⟨rfl, j, h1, h2, h3⟩; exact .window h1 h2 h3
    · intro h
      cases h with
      | fixed hk => cases hk
      | string h => rcases h with h | h | h <;> cases h
      | window h1 h2 h3 => exact ⟨rfl, _, h1, h2, h3⟩
  case svcparams =>
    simp only [pField]
    have hx := pSvcparams_exact (mem := mem) (e := e) hm (e - o + 1) o out (by omega) (by omega)
    have hchk : (pSvcparams mem (e - o + 1) ⟨o, e - o, out⟩ >>= endCheck) = err c ↔ pSvcparams mem (e - o + 1) ⟨o, e - o, out⟩ = err c := by
      cases hp : pSvcparams mem (e - o + 1) ⟨o, e - o, out⟩ with
      | ok st =>
        have := ((hx.1 st).mp hp).2
        subst this
        simp [endCheck]
      | _ => simp
    rw [hchk, pSvcparams_fault hm c _ _ _ (by omega) (by omega)]
    constructor
    · rintro ⟨j, h1, ⟨rfl, h2, h3⟩ | ⟨rfl, h2, h3⟩ | ⟨rfl, h2, h3, h4, h5⟩⟩
      · exact .paramHead h1 h2 h3
      · exact .paramSize h1 h2 h3
      · exact .paramValue h1 h2 h3 h4 h5
    · intro h
      cases h with
      | fixed hk => cases hk
      | string h => rcases h with h | h | h <;> cases h
      | paramHead h1 h2 h3 => exact ⟨_, h1, .inl ⟨rfl, h2, h3⟩⟩
      | paramSize h1 h2 h3 => exact ⟨_, h1, .inr (.inl ⟨rfl, h2, h3⟩)⟩
      | paramValue h1 h2 h3 h4 h5 => exact ⟨_, h1, .inr (.inr ⟨rfl, h2, h3, h4, h5⟩)⟩
  all_goals exact hT.elim

theorem fieldFault_noName {mem : List UInt8} {e o : Nat} {t : Rdf} {c : Res} (h : FieldFault mem e t o c) : ¬ IsName t := by
  intro hN
  cases h with
  | fixed hk => cases t <;> first | exact hN.elim | cases hk
  | string h => rcases h with rfl | rfl | rfl <;> exact hN.elim
  | _ => exact hN.elim

theorem fieldOK_noName {t : Rdf} {f : List UInt8} (h : FieldOK t f) : ¬ IsName t := by
  intro hN; cases t <;> first | exact h.elim | exact hN.elim

theorem pFields_fault {mem : List UInt8} {eop : Nat} (hm : eop < mem.length) (h64 : eop < 2 ^ 64) (c : Res) : ∀ ts src b out, TermLast ts → src + b ≤ eop → b < 65536 →
    ((pFields mem 0 eop ts ⟨src, b, out⟩ >>= endCheck) = err c ↔ FieldsFault mem eop (src + b) ts src c)
  | [], src, b, out, _, _, _ => by
    rw [pFields, ok_bind, endCheck]
    by_cases hb : b = 0
    · subst hb
      rw [if_neg (by simp)]
      exact ⟨by simp, fun h => by cases h; omega⟩
    · rw [if_pos hb, err.injEq]
      exact ⟨fun h => by subst h; exact .extra (by omega), fun h => by cases h; rfl⟩
  | t :: ts, src, b, out, hT, hl, hb => by
    by_cases hb0 : b = 0
    · subst hb0
      rw [pFields_zero, ok_bind, endCheck, if_neg (by simp)]
      exact ⟨by simp, fun h => by cases h <;> omega⟩
    rw [pFields]
    simp only
    rw [if_neg hb0]
    by_cases hN : IsName t
    · by_cases hD : ∃ n, Denotes (mem.take (eop + 1)) 0 src n ∧ WF n
      · obtain ⟨n, hd, hwf⟩ := hD
        obtain ⟨e, he, _⟩ := encEnd_of_denotes hd
        have hlt := encEnd_lt he
        have hno : ¬ NameFault (mem.take (eop + 1)) 0 src c := by
          intro h
          have h1 := (C02_unpack_faults maxlenName mem 0 eop src (by decide) hm (Nat.zero_le _) (by omega) c).mpr h
          rw [(name_read (by omega) h64 (Nat.zero_le _) (by omega) hd hwf he).1] at h1
          cases h1
        rw [name_field (by omega) h64 hN (by omega) hd hwf he]
        by_cases hk : b < min e eop - src
        · rw [if_pos hk, err_bind, err_bind, err.injEq]
          constructor
          · rintro rfl; exact .nameEnd (by omega) hN hd hwf he (by omega) (by omega)
          · intro h
            cases h with
            | name _ _ h => exact absurd h hno
            | nameEnd => rfl
            | field _ h => exact absurd hN (fieldFault_noName h)
            | afterName _ _ _ _ he' hle _ => have := encEnd_functional he he'; omega
            | afterField _ _ _ hf => exact absurd hN (fieldOK_noName hf)
        · rw [if_neg hk, ok_bind]
          by_cases hov : e ≤ src + b
          · rw [Nat.min_eq_left (by omega)]
            have ih := pFields_fault hm h64 c ts e (b - (e - src)) (out ++ wire n) hT.2 (by omega) (by omega)
            rw [show e + (b - (e - src)) = src + b by omega] at ih
            rw [ih]
            constructor
            · intro h; exact .afterName (by omega) hN hd hwf he hov h
            · intro h
              cases h with
              | name _ _ h => exact absurd h hno
              | nameEnd _ _ _ _ he' h1 _ => have := encEnd_functional he he'; omega
              | field _ h => exact absurd hN (fieldFault_noName h)
              | afterName _ _ _ _ he' _ h => have := encEnd_functional he he'; subst this; exact h
              | afterField _ _ _ hf => exact absurd hN (fieldOK_noName hf)
          · rw [show b - (min e eop - src) = 0 by omega, pFields_zero, ok_bind, endCheck, if_neg (by simp)]
            refine ⟨by simp, fun h => ?_⟩
            cases h with
            | name _ _ h => exact absurd h hno
            | nameEnd _ _ _ _ he' h1 h2 => have := encEnd_functional he he'; omega
            | field _ h => exact absurd hN (fieldFault_noName h)
            | afterName _ _ _ _ he' hle _ => have := encEnd_functional he he'; omega
            | afterField _ _ _ hf => exact absurd hN (fieldOK_noName hf)
      · have hno : ∀ a, unpackName maxlenName mem 0 eop src ≠ ok a := by
          rintro ⟨nm, l⟩ hu
          obtain ⟨n, hd, hwf, _⟩ := (C02_unpack_exact_overread maxlenName mem 0 eop src _ _ (by decide) (Nat.zero_le _) (by omega)).mp hu
          exact hD ⟨n, hd, hwf⟩
        rw [pField_name hN]
        have hb : ((unpackName maxlenName mem 0 eop src >>= fun x => skipName mem src eop >>= fun y =>
            if b < y.2 then (err .outOfBounds : Outcome PState) else ok ⟨y.1, b - y.2, out ++ x.1.take x.2⟩) >>= (fun st => pFields mem 0 eop ts st) >>= endCheck) = err c ↔
            unpackName maxlenName mem 0 eop src = err c := by
          cases hu : unpackName maxlenName mem 0 eop src with
          | ok a => exact absurd hu (hno a)
          | _ => simp
        rw [hb, C02_unpack_faults maxlenName mem 0 eop src (by decide) hm (Nat.zero_le _) (by omega) c]
        constructor
        · intro h; exact .name (by omega) hN h
        · intro h
          cases h with
          | name _ _ h => exact h
          | nameEnd _ _ hd hwf => exact absurd ⟨_, hd, hwf⟩ hD
          | field _ h => exact absurd hN (fieldFault_noName h)
          | afterName _ _ hd hwf _ _ _ => exact absurd ⟨_, hd, hwf⟩ hD
          | afterField _ _ _ hf => exact absurd hN (fieldOK_noName hf)
    · by_cases hterm : Terminal t
      · have hts := hT.1 hterm
        subst hts
        have := pTerminal_fault (mem := mem) (eop := eop) (o := src) (e := src + b) (t := t) (out := out) (by omega) (by omega) hterm c
        rw [show src + b - src = b by omega] at this
        have hp : (pField mem 0 eop t ⟨src, b, out⟩ >>= fun st => pFields mem 0 eop [] st) = pField mem 0 eop t ⟨src, b, out⟩ := by
          cases pField mem 0 eop t ⟨src, b, out⟩ <;> simp [pFields]
        rw [hp, this]
        constructor
        · intro h; exact .field (by omega) h
        · intro h
          cases h with
          | name _ h => exact absurd h hN
          | nameEnd _ h => exact absurd h hN
          | field _ h => exact h
          | afterName _ h => exact absurd h hN
          | afterField _ _ _ _ h => exact absurd hterm h
      · have hw := Win.mk' (mem := mem) (o := src) (n := b) (by omega)
        have hwl := take_drop_length mem src b (by omega)
        have hspec := pField_spec (p := 0) (eop := eop) (out := out) hN hw
          (by intro h; rw [h] at hwl; simp at hwl; omega) (by rw [hwl]; exact hb) (fun h => absurd (by rw [h]; trivial) hterm)
        rw [hwl] at hspec
        have hfault := pField_fault (mem := mem) (eop := eop) (o := src) (e := src + b) (t := t) (out := out) (by omega) (by omega) hN hterm
        rw [show src + b - src = b by omega] at hfault
        have hback : ∀ {o'}, src ≤ o' → o' ≤ src + b → FieldOK t ((mem.drop src).take (o' - src)) →
            pField mem 0 eop t ⟨src, b, out⟩ = ok ⟨o', src + b - o', out ++ (mem.drop src).take (o' - src)⟩ := by
          intro o' h1 h2 hf
          have hfl : ((mem.drop src).take (o' - src)).length = o' - src := take_drop_length _ _ _ (by omega)
          have hr : ((mem.drop o').take (src + b - o')).length = src + b - o' := take_drop_length _ _ _ (by omega)
          have hw' : Win mem src ((mem.drop src).take (o' - src) ++ (mem.drop o').take (src + b - o')) := by
            have h := hw
            rw [show b = (o' - src) + (src + b - o') by omega, List.take_add, List.drop_drop, show src + (o' - src) = o' by omega] at h
            exact h
          rw [pField_complete hf hw' (by
              intro h; have := congrArg List.length h
              rw [List.length_append, hfl, hr] at this; simp at this; omega)
            (by rw [List.length_append, hfl, hr]; omega) (fun h => absurd h hterm) (by rw [List.length_append, hfl, hr]; omega), hfl, hr,
            show src + (o' - src) = o' by omega]
        rcases hspec with ⟨f, rest, e, hf, ht, hr⟩ | ⟨_, ⟨x, hr⟩ | ⟨hterm', _⟩⟩
        · rw [hr, ok_bind]
          have el := congrArg List.length e
          rw [hwl, List.length_append] at el
          have hfe : f = (mem.drop src).take (src + f.length - src) := by
            have := congrArg (List.take f.length) e
            rw [List.take_take, List.take_left, Nat.min_eq_left (by omega)] at this
            rw [show src + f.length - src = f.length by omega]
            exact this.symm
          have ih := pFields_fault hm h64 c ts (src + f.length) rest.length (out ++ f) hT.2 (by omega) (by omega)
          rw [show src + f.length + rest.length = src + b by omega] at ih
          rw [ih]
          constructor
          · intro h
            exact .afterField (o' := src + f.length) (by omega) (by omega) (by omega) (by rw [← hfe]; exact hf) hterm h
          · intro h
            cases h with
            | name _ h => exact absurd h hN
            | nameEnd _ h => exact absurd h hN
            | field _ h => have := (hfault c).mpr h; rw [hr] at this; cases this
            | afterName _ h => exact absurd h hN
            | @afterField _ _ _ o' _ _ h1 h2 h3 h4 h5 =>
              have := hback h1 h2 h3
              rw [hr] at this
              simp only [ok.injEq, PState.mk.injEq] at this
              rw [this.1]; exact h5
        · rw [hr, err_bind, err_bind]
          constructor
          · intro h
            rw [err.injEq] at h; subst h
            exact .field (by omega) ((hfault _).mp hr)
          · intro h
            cases h with
            | name _ h => exact absurd h hN
            | nameEnd _ h => exact absurd h hN
            | field _ h => have := (hfault c).mpr h; rw [hr, err.injEq] at this; rw [this]
            | afterName _ h => exact absurd h hN
            | @afterField _ _ _ o' _ _ h1 h2 h3 h4 h5 => have := hback h1 h2 h3; rw [hr] at this; cases this
        · exact absurd hterm' hterm

theorem parseRdata_fault {mem : List UInt8} {eop o rdlen ty cls : Nat} (hm : eop < mem.length) (h64 : eop < 2 ^ 64) (hfit : o + rdlen ≤ eop) (hl : rdlen < 65536) (c : Res) :
    parseRdata mem 0 eop o rdlen ty cls = err c ↔ RdataFault mem eop c o rdlen ty cls := by
  by_cases hop : Opaque ty cls
  · have hwl := take_drop_length mem o rdlen (by omega)
    have := parseRdata_opaque (p := 0) (eop := eop) hop (Win.mk' (mem := mem) (o := o) (n := rdlen) (by omega)) (by rw [hwl]; exact hl)
    rw [hwl] at this
    rw [this]
    refine ⟨by simp, ?_⟩
    rintro ⟨d, hd, ha, -⟩
    rw [hop d hd] at ha; cases ha
  · unfold Opaque at hop
    simp only [not_forall, Bool.not_eq_false] at hop
    obtain ⟨d, hd, ha⟩ := hop
    rw [parseRdata_known hd ha]
    have := pFields_fault hm h64 c d.types o rdlen [] (descr_facts hd).1 hfit hl
    have h2 : (pFields mem 0 eop d.types ⟨o, rdlen, []⟩ >>= fun st => if st.bytes ≠ 0 then err .outOfBounds else ok (⟨st.out.length % 65536, st.out⟩ : CRdata)) =
      (pFields mem 0 eop d.types ⟨o, rdlen, []⟩ >>= endCheck) := by
      congr 1
    rw [h2, this]
    constructor
    · intro h; exact ⟨d, hd, ha, h⟩
    · rintro ⟨d', hd', _, h⟩
      rw [hd] at hd'; cases hd'
      exact h

theorem nameFault_no {mem : List UInt8} {eop o : Nat} {c : Res} (hm : eop < mem.length) (ho : o < eop) {a} (h : unpackName maxlenName mem 0 eop o = ok a) :
    ¬ NameFault (mem.take (eop + 1)) 0 o c := by
  rw [← C02_unpack_faults maxlenName mem 0 eop o (by decide) hm (Nat.zero_le _) ho, h]
  simp

theorem parseMessageRr_fault {sec : Nat} {mem : List UInt8} {eop o : Nat} (hm : eop < mem.length) (h64 : eop < 2 ^ 64) (ho : o < eop) (c : Res) :
    parseMessageRr sec mem 0 eop o = err c ↔ RecordFault mem eop sec o c := by
  by_cases hN : ∃ n, Denotes (mem.take (eop + 1)) 0 o n ∧ WF n
  · obtain ⟨n, hd, hwf⟩ := hN
    obtain ⟨e, he, _⟩ := encEnd_of_denotes hd
    obtain ⟨hun, hle, hs⟩ := name_read (by omega) h64 (Nat.zero_le _) ho hd hwf he
    have hlt := encEnd_lt he
    have hno := nameFault_no (c := c) hm ho hun
    rw [parseMessageRr_eq hun hs (by omega)]
    split
    · rename_i hbad
      constructor
      · intro h
        rw [err.injEq] at h; subst h
        refine .head hd hwf he ?_
        by_cases h4 : eop < e
        · left; omega
        · rw [Nat.min_eq_left (by omega)] at hbad; omega
      · intro h
        cases h with
        | owner h => exact absurd h hno
        | head => rfl
        | rdata h0 _ _ he' hl _ => have := encEnd_functional he he'; subst this; rw [Nat.min_eq_left (by omega)] at hbad; omega
        | inside h0 hr =>
          obtain ⟨n', e', hd', hwf', he', hle', _⟩ := hr
          have := encEnd_functional he he'; subst this; rw [Nat.min_eq_left (by omega)] at hbad; omega
    · rename_i hgood
      rw [Nat.min_eq_left (by omega)]
      rw [Nat.min_eq_left (by omega)] at hgood
      split
      · rename_i h0
        refine ⟨by simp, fun h => ?_⟩
        cases h with
        | owner h => exact absurd h hno
        | head _ _ he' h4 => have := encEnd_functional he he'; omega
        | rdata h => exact absurd h0 h
        | inside h => exact absurd h0 h
      · rename_i h0
        split
        · rename_i hov
          constructor
          · intro h
            rw [err.injEq] at h; subst h
            exact .rdata h0 hd hwf he (by omega) (by omega)
          · intro h
            cases h with
            | owner h => exact absurd h hno
            | head _ _ he' h4 => have := encEnd_functional he he'; omega
            | rdata => rfl
            | inside h0 hr =>
              obtain ⟨n', e', hd', hwf', he', hle', _⟩ := hr
              have := encEnd_functional he he'; subst this; omega
        · rename_i hov
          rw [(stops_err c).map (parseRdata mem 0 eop _ _ _ _) _, parseRdata_fault hm h64 (by omega) (u16At_lt _ _)]
          constructor
          · intro h; exact .inside h0 ⟨n, e, hd, hwf, he, by omega, h⟩
          · intro h
            cases h with
            | owner h => exact absurd h hno
            | head _ _ he' h4 => have := encEnd_functional he he'; omega
            | rdata _ _ _ he' _ h => have := encEnd_functional he he'; subst this; omega
            | inside _ hr =>
              obtain ⟨n', e', hd', hwf', he', hle', h⟩ := hr
              have := encEnd_functional he he'; subst this
              exact h
  · have hno : ∀ a, unpackName maxlenName mem 0 eop o ≠ ok a := by
      rintro ⟨nm, l⟩ hu
      obtain ⟨n, hd, hwf, _⟩ := (C02_unpack_exact_overread maxlenName mem 0 eop o _ _ (by decide) (Nat.zero_le _) ho).mp hu
      exact hN ⟨n, hd, hwf⟩
    unfold parseMessageRr
    rw [(stops_err c).bind, C02_unpack_faults maxlenName mem 0 eop o (by decide) hm (Nat.zero_le _) ho]
    constructor
    · rintro (h | ⟨a, h, _⟩)
      · exact .owner h
      · exact absurd h (hno a)
    · intro h
      cases h with
      | owner h => exact .inl h
      | head hd hwf => exact absurd ⟨_, hd, hwf⟩ hN
      | rdata _ hd hwf => exact absurd ⟨_, hd, hwf⟩ hN
      | inside _ h => obtain ⟨n', e', hd', hwf', _⟩ := h; exact absurd ⟨_, hd', hwf'⟩ hN

/-- **C101, for the rdata.** The code with which an rdata is rejected names its first fault (`RdataFault`, `FieldsFault`): too few octets for a field, a string or the
fixed part of a SvcParam, and a SvcParam whose value does not suit its key, are `wdns_res_parse_error`; octets left over, a name that goes on behind the rdata, a prefix length over 128,
a wrong window of a type bitmap, and a SvcParam that is longer than what is left, are `wdns_res_out_of_bounds`; for a wrong name see C02. -/
theorem C101_rdata_code (mem : List UInt8) (len o rdlen ty cls : Nat) (hm : len < mem.length) (h64 : len < 2 ^ 64)
    (hfit : o + rdlen ≤ len) (hl : rdlen < 65536) (c : Res) :
    parseRdata mem 0 len o rdlen ty cls = err c ↔ RdataFault mem len c o rdlen ty cls :=
  parseRdata_fault hm h64 hfit hl c

/-- **C101, for the packet.** A packet is rejected with the code `c` exactly if it is shorter than a header and `c` is `wdns_res_len`, or if `c` names what is wrong with the first record
that is not in order. -/
theorem C101_packet_code (mem : List UInt8) (len : Nat) (hm : len < mem.length) (h64 : len < 2 ^ 64) (c : Res) :
    parseMessage mem len = err c ↔
      (len < 12 ∧ c = .len) ∨ (12 ≤ len ∧ ∃ sec o, RecordAt mem len sec o ∧ RecordFault mem len sec o c) := by
  have key : 12 ≤ len → (readAll mem len (headerSecs mem) 12 = err c ↔ ∃ sec o, RecordAt mem len sec o ∧ RecordFault mem len sec o c) := by
    intro h12
    rw [readAll_mem_bad (by omega) h64 (stops_err c) h12]
    exact exists_congr fun sec => exists_congr fun o => and_congr_right fun hr => parseMessageRr_fault hm h64 hr.2.1 c
  rcases parseMessage_eq (show len ≤ mem.length by omega) with ⟨h, h'⟩ | ⟨h12, ⟨_, _, h, h', _⟩ | ⟨_, h, h'⟩ | ⟨h, h'⟩ | ⟨h, h'⟩ | ⟨h, h'⟩⟩
  · rw [h', err.injEq]
    constructor
    · intro e; exact .inl ⟨by omega, e.symm⟩
    · rintro (⟨_, e⟩ | ⟨h, _⟩)
      · exact e.symm
      · omega
  all_goals rw [h', or_iff_right (fun h => by omega), ← and_iff_right (a := 12 ≤ len) (b := (_ : Outcome Message) = err c) h12]
  all_goals refine and_congr_right fun _ => ?_
  all_goals rw [← key h12, h]; simp

/-! The codes are all met: an A record with 3 octets, one with 5, one that is cut off, and one without a fixed part; and the fault behind one of them. -/

/-- A packet with one A record in the answer section, of the class IN, owned by the root, with the given length field and octets. -/
def onlyA (n : UInt8) (rd : List UInt8) : List UInt8 := [0, 7, 0x80, 0, 0, 0, 0, 1, 0, 0, 0, 0] ++ [0, 0, 1, 0, 1, 0, 0, 0, 9, 0, n] ++ rd ++ [0]

example : parseMessage (onlyA 3 [1, 2, 3]) 26 = err .parseError := by decide +kernel
example : parseMessage (onlyA 5 [1, 2, 3, 4, 5]) 28 = err .outOfBounds := by decide +kernel
example : parseMessage (onlyA 5 [1, 2, 3, 4]) 27 = err .overflow := by decide +kernel
example : parseMessage (onlyA 5 []) 20 = err .parseError := by decide +kernel
example : parseMessage (onlyA 5 []) 11 = err .len := by decide +kernel
example : ∃ sec o, RecordAt (onlyA 5 [1, 2, 3, 4, 5]) 28 sec o ∧ RecordFault (onlyA 5 [1, 2, 3, 4, 5]) 28 sec o .outOfBounds := by
  rcases (C101_packet_code (onlyA 5 [1, 2, 3, 4, 5]) 28 (by decide) (by decide) .outOfBounds).mp (by decide +kernel) with ⟨h, _⟩ | ⟨_, h⟩
  · omega
  · exact h
example : RdataFault (onlyA 5 [1, 2, 3, 4, 5]) 28 .outOfBounds 23 5 1 1 := by
  refine ⟨_, rfl, by decide, .afterField (o' := 27) (by decide) (by decide) (by decide) ?_ ?_ (.extra (by decide))⟩
  · simp [FieldOK, onlyA]
  · simp [Terminal]

end Wdns
