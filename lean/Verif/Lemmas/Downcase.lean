import Verif.Model.Downcase
import Verif.Spec.Downcase
import Verif.Lemmas.Descr
import Verif.Lemmas.NameOps
import Mathlib.Data.List.Forall2

namespace Wdns
open Outcome Spec

/-! ### The same computation on the not yet visited suffix -/

def dnNameS : List UInt8 → Nat → Outcome (List UInt8 × List UInt8 × Nat)
  | w, 0 => ok ([], w, sizeMax)
  | [], _ + 1 => ub
  | c :: w, rem + 1 =>
    if c = 0 then ok ([0], w, rem)
    else do
      let (pre, rest, rem') ← dnNameS w rem
      ok (lower c :: pre, rest, rem')

/-- How far a field that is neither a name nor open-ended advances; `none`: parse error. -/
def dnAdv (t : Rdf) (w : List UInt8) (rem : Nat) : Outcome (Option Nat) :=
  match t with
  | .int8 => ok (some 1)
  | .int16 | .rrtype => ok (some 2)
  | .int32 | .ipv4 => ok (some 4)
  | .ipv6 => ok (some 16)
  | .eui48 => ok (some 6)
  | .eui64 => if rem < 8 then ok none else do
    let oclen ← rd w 8
    ok (some (8 + (oclen.toNat + 1)))
  | .string | .salt | .hash => do
    let oclen ← rd w 0
    ok (some (oclen.toNat + 1))
  | .ipv6prefix => do
    let oclen ← rd w 0
    if oclen.toNat > 16 then ok none else ok (some (oclen.toNat + 1))
  | .ednsOptRdata => abort
  | _ => ok none

/-- Fields at which the loop returns. -/
def dnStop : Rdf → Bool
  | .repstring | .bytes | .bytesB64 | .bytesStr | .typeBitmap | .svcparams => true
  | _ => false

def dnS : List Rdf → List UInt8 → Nat → Outcome (Res × List UInt8)
  | [], w, rem => if rem ≠ 0 then ok (.parseError, w) else ok (.success, w)
  | t :: ts, w, rem =>
    if rem = 0 then ok (.success, w)
    else if IsName t then do
      let (pre, rest, rem) ← dnNameS w rem
      let (res, y) ← dnS ts rest rem
      ok (res, pre ++ y)
    else if dnStop t then ok (.success, w)
    else do
      let a ← dnAdv t w rem
      match a with
      | none => ok (.parseError, w)
      | some x =>
        if rem < x then ok (.parseError, w)
        else do
          let (res, y) ← dnS ts (w.drop x) (rem - x)
          ok (res, w.take x ++ y)

theorem lower_ne_zero {c : UInt8} (h : c ≠ 0) : lower c ≠ 0 := by
  intro hc
  apply h
  have hall : ∀ n < 256, lower (UInt8.ofNat n) = 0 → n = 0 := by decide +kernel
  have := hall c.toNat c.toNat_lt (by rw [u8_ofNat_toNat]; exact hc)
  exact u8_eq_zero.mpr this

theorem rd_drop (data : List UInt8) (p i : Nat) : rd (data.drop p) i = rd data (p + i) := by
  simp [rd]

theorem dnName_eq : ∀ (fuel : Nat) (data : List UInt8) (p rem : Nat), data.length - p + 1 ≤ fuel →
    dnName fuel data p rem = (do
      let (pre, rest, rem') ← dnNameS (data.drop p) rem
      ok (data.take p ++ (pre ++ rest), p + pre.length, rem')) := by
  intro fuel
  induction fuel with
  | zero => intro data p rem h; omega
  | succ fuel ih =>
    intro data p rem hf
    unfold dnName
    cases rem with
    | zero => simp [dnNameS]
    | succ rem =>
      rw [if_neg (by omega)]
      by_cases hp : p < data.length
      · have hd : data.drop p = data[p] :: data.drop (p + 1) := List.drop_eq_getElem_cons hp
        rw [rd_of_lt hp, hd]
        simp only [ok_bind, Nat.add_sub_cancel, dnNameS]
        by_cases hc : data[p] = 0
        · simp only [hc, if_true, ok_bind, List.length_singleton]
          congr 2
          rw [← hc]; simp [← hd]
        · simp only [hc, if_false]
          generalize hdd : (if data[p].toNat ≥ 65 ∧ data[p].toNat ≤ 90 then data.set p (data[p] ||| 0x20) else data) = D
          have hD : D = data.set p (lower data[p]) := by
            rw [← hdd, ← downcase_byte]
            split <;> simp
          subst hD
          rw [ih _ _ _ (by simp; omega)]
          rw [List.drop_set_of_lt (by omega)]
          cases dnNameS (data.drop (p + 1)) rem with
          | ok a =>
            obtain ⟨pre, rest, rem'⟩ := a
            simp only [ok_bind, ok.injEq, Prod.mk.injEq, List.length_cons, and_true]
            refine ⟨?_, by omega⟩
            rw [List.take_set, List.take_add_one, List.set_append_right _ _ (by simp; omega)]
            simp [hp, Nat.min_eq_left (Nat.le_of_lt hp)]
          | _ => rfl
      · have h1 : rd data p = ub := rd_ub.mpr (by omega)
        rw [h1, List.drop_eq_nil_of_le (by omega)]
        simp [dnNameS]

theorem dnNameS_rest {w : List UInt8} : ∀ {rem : Nat} {pre rest : List UInt8} {rem' : Nat},
    dnNameS w rem = ok (pre, rest, rem') → rest = w.drop pre.length ∧ pre.length ≤ w.length ∧
      List.Forall₂ (fun a b => b = a ∨ b = lower a) (w.take pre.length) pre ∧
      ∀ r', dnNameS (pre ++ r') rem = ok (pre, r', rem') := by
  induction w with
  | nil =>
    intro rem pre rest rem' h
    cases rem with
    | zero => simp [dnNameS] at h; obtain ⟨rfl, rfl, rfl⟩ := h; simp [dnNameS]
    | succ rem => simp [dnNameS] at h
  | cons c w ih =>
    intro rem pre rest rem' h
    cases rem with
    | zero => simp [dnNameS] at h; obtain ⟨rfl, rfl, rfl⟩ := h; simp [dnNameS]
    | succ rem =>
      simp only [dnNameS] at h
      by_cases hc : c = 0
      · simp only [hc, if_true, ok.injEq, Prod.mk.injEq] at h
        obtain ⟨rfl, rfl, rfl⟩ := h
        simp [dnNameS, hc]
      · simp only [hc, if_false] at h
        obtain ⟨⟨p1, r1, m1⟩, h1, h2⟩ := bind_eq_ok.mp h
        simp only [ok.injEq, Prod.mk.injEq] at h2
        obtain ⟨rfl, rfl, rfl⟩ := h2
        obtain ⟨a, b, c', d⟩ := ih h1
        refine ⟨by simpa using a, by simpa using b, ?_, ?_⟩
        · simp only [List.length_cons, List.take_succ_cons]
          exact .cons (Or.inr rfl) c'
        · intro r'
          have hl : lower c ≠ 0 := lower_ne_zero hc
          simp only [List.cons_append, dnNameS, hl, if_false, d r', ok_bind, lower_lower]

theorem dnFields_eq : ∀ (ts : List Rdf) (data : List UInt8) (p rem : Nat),
    dnFields ts data p rem = (do
      let (res, y) ← dnS ts (data.drop p) rem
      ok (res, data.take p ++ y)) := by
  intro ts
  induction ts with
  | nil => intro data p rem; unfold dnFields dnS; split <;> simp
  | cons t ts ih =>
    intro data p rem
    have key : ∀ x, (if rem < x then ok (Res.parseError, data) else dnFields ts data (p + x) (rem - x)) =
        (do
          let (res, y) ← (if rem < x then ok (Res.parseError, data.drop p)
            else do
              let (res, y) ← dnS ts ((data.drop p).drop x) (rem - x)
              ok (res, (data.drop p).take x ++ y))
          ok (res, data.take p ++ y)) := by
      intro x
      by_cases hx : rem < x
      · simp [hx]
      · simp only [hx, if_false]
        rw [ih, List.drop_drop]
        cases dnS ts (data.drop (p + x)) (rem - x) with
        | ok a =>
          obtain ⟨res, y⟩ := a
          simp only [ok_bind, List.take_add, List.append_assoc]
        | _ => rfl
    by_cases hr : rem = 0
    · simp [dnFields, dnS, hr]
    · cases t
      case name | uname =>
        simp only [dnFields, dnS, hr, if_false, if_true, IsName]
        rw [dnName_eq _ _ _ _ (by omega)]
        cases hn : dnNameS (data.drop p) rem with
        | ok a =>
          obtain ⟨pre, rest, rem'⟩ := a
          simp only [ok_bind]
          obtain ⟨h1, h2, -, -⟩ := dnNameS_rest hn
          have hp : p < data.length := by
            by_contra hc
            rw [List.drop_eq_nil_of_le (by omega)] at hn
            cases rem with
            | zero => omega
            | succ rem => simp [dnNameS] at hn
          rw [ih]
          have e1 : (data.take p ++ (pre ++ rest)).drop (p + pre.length) = rest := by
            rw [List.drop_append, List.drop_eq_nil_of_le (by simp; omega)]
            simp [Nat.min_eq_left (Nat.le_of_lt hp)]
          have e2 : (data.take p ++ (pre ++ rest)).take (p + pre.length) = data.take p ++ pre := by
            rw [List.take_append, List.take_of_length_le (by simp; omega)]
            simp [Nat.min_eq_left (Nat.le_of_lt hp)]
          rw [e1, e2]
          cases dnS ts rest rem' with
          | ok a => obtain ⟨res, y⟩ := a; simp
          | _ => rfl
        | _ => rfl
      case repstring | bytes | bytesB64 | bytesStr | typeBitmap | svcparams =>
        simp [dnFields, dnS, hr, IsName, dnStop]
      case ednsOptRdata => simp [dnFields, dnS, hr, IsName, dnStop, dnAdv]
      case int8 | int16 | rrtype | int32 | ipv4 | ipv6 | eui48 =>
        simp only [dnFields, dnS, hr, if_false, IsName, dnStop, dnAdv, ok_bind, Bool.false_eq_true]
        exact key _
      case string | salt | hash =>
        simp only [dnFields, dnS, hr, if_false, IsName, dnStop, dnAdv, Bool.false_eq_true, rd_drop,
          Nat.add_zero]
        cases rd data p with
        | ok c => exact key _
        | _ => rfl
      case ipv6prefix =>
        simp only [dnFields, dnS, hr, if_false, IsName, dnStop, dnAdv, Bool.false_eq_true, rd_drop,
          Nat.add_zero]
        cases rd data p with
        | ok c =>
          simp only [ok_bind]
          by_cases hc : c.toNat > 16
          · simp [hc]
          · simp only [hc, if_false, ok_bind]; exact key _
        | _ => rfl
      case eui64 =>
        simp only [dnFields, dnS, hr, if_false, IsName, dnStop, dnAdv, ok_bind, Bool.false_eq_true, rd_drop]
        by_cases h8 : rem < 8
        · simp [h8]
        · simp only [h8, if_false]
          cases rd data (p + 8) with
          | ok c =>
            simp only [ok_bind]
            rw [← key]
            by_cases h9 : rem < 8 + (c.toNat + 1)
            · rw [if_pos (by omega), if_pos h9]
            · rw [if_neg (by omega), if_neg h9]
              rw [← Nat.add_assoc p 8, Nat.sub_sub]
          | _ => rfl

/-! ### Only letter case changes; a second call changes nothing -/

/-- The octet is kept, or is an upper-case letter that became lower-case. -/
def CaseStep (a b : UInt8) : Prop := b = a ∨ b = lower a

theorem dnAdv_congr {t : Rdf} {w w' : List UInt8} {rem x : Nat} (h : dnAdv t w rem = ok (some x))
    (hw : w'.take x = w.take x) : dnAdv t w' rem = ok (some x) := by
  have hrd : ∀ i, i < x → rd w' i = rd w i := by
    intro i hi
    have : (w'.take x)[i]? = (w.take x)[i]? := by rw [hw]
    rw [List.getElem?_take_of_lt hi, List.getElem?_take_of_lt hi] at this
    simp [rd, this]
  cases t <;> simp only [dnAdv] at h ⊢ <;> try exact h
  case eui64 =>
    split at h
    · simp at h
    · rename_i h8
      obtain ⟨c, h1, h2⟩ := bind_eq_ok.mp h
      simp only [ok.injEq, Option.some.injEq] at h2
      rw [if_neg h8, hrd 8 (by omega), h1]; simp [h2]
  case string | salt | hash =>
    obtain ⟨c, h1, h2⟩ := bind_eq_ok.mp h
    simp only [ok.injEq, Option.some.injEq] at h2
    rw [hrd 0 (by omega), h1]; simp [h2]
  case ipv6prefix =>
    obtain ⟨c, h1, h2⟩ := bind_eq_ok.mp h
    split at h2
    · simp at h2
    · rename_i h16
      simp only [ok.injEq, Option.some.injEq] at h2
      rw [hrd 0 (by omega), h1]; simp [h2, h16]

theorem caseStep_refl (w : List UInt8) : List.Forall₂ CaseStep w w := by
  induction w with
  | nil => exact .nil
  | cons a w ih => exact .cons (Or.inl rfl) ih

theorem dnS_spec : ∀ (ts : List Rdf) (w : List UInt8) (rem : Nat) (res : Res) (w' : List UInt8),
    dnS ts w rem = ok (res, w') → List.Forall₂ CaseStep w w' ∧ dnS ts w' rem = ok (res, w') := by
  intro ts
  induction ts with
  | nil =>
    intro w rem res w' h
    unfold dnS at h ⊢
    by_cases hr : rem ≠ 0
    · simp only [hr, if_true, ok.injEq, Prod.mk.injEq, not_false_eq_true, ne_eq] at h ⊢
      obtain ⟨rfl, rfl⟩ := h; exact ⟨caseStep_refl _, by simp⟩
    · simp only [hr, if_false, ok.injEq, Prod.mk.injEq] at h ⊢
      obtain ⟨rfl, rfl⟩ := h; exact ⟨caseStep_refl _, by simp⟩
  | cons t ts ih =>
    intro w rem res w' h
    unfold dnS at h ⊢
    by_cases hr : rem = 0
    · simp only [hr, if_true, ok.injEq, Prod.mk.injEq] at h ⊢
      obtain ⟨rfl, rfl⟩ := h; exact ⟨caseStep_refl _, by simp⟩
    · simp only [hr, if_false] at h ⊢
      by_cases hn : IsName t
      · simp only [hn, if_true] at h ⊢
        obtain ⟨⟨pre, rest, rem'⟩, h1, h2⟩ := bind_eq_ok.mp h
        obtain ⟨⟨res2, y⟩, h3, h4⟩ := bind_eq_ok.mp h2
        simp only [ok.injEq, Prod.mk.injEq] at h4
        obtain ⟨rfl, rfl⟩ := h4
        obtain ⟨a, b, c, d⟩ := dnNameS_rest h1
        obtain ⟨e, f⟩ := ih _ _ _ _ h3
        constructor
        · rw [← List.take_append_drop pre.length w, ← a]
          exact List.rel_append c e
        · rw [d y]; simp only [ok_bind]; rw [f]; simp
      · simp only [hn, if_false] at h ⊢
        by_cases hs : dnStop t = true
        · simp only [hs, if_true, ok.injEq, Prod.mk.injEq] at h ⊢
          obtain ⟨rfl, rfl⟩ := h; exact ⟨caseStep_refl _, by simp⟩
        · simp only [hs, if_false, Bool.false_eq_true] at h ⊢
          obtain ⟨a, h1, h2⟩ := bind_eq_ok.mp h
          cases a with
          | none =>
            simp only [ok.injEq, Prod.mk.injEq] at h2
            obtain ⟨rfl, rfl⟩ := h2
            exact ⟨caseStep_refl _, by rw [h1]; rfl⟩
          | some x =>
            simp only at h2
            by_cases hx : rem < x
            · simp only [hx, if_true, ok.injEq, Prod.mk.injEq] at h2
              obtain ⟨rfl, rfl⟩ := h2
              refine ⟨caseStep_refl _, ?_⟩
              rw [h1]; simp [hx]
            · simp only [hx, if_false] at h2
              obtain ⟨⟨res2, y⟩, h3, h4⟩ := bind_eq_ok.mp h2
              simp only [ok.injEq, Prod.mk.injEq] at h4
              obtain ⟨rfl, rfl⟩ := h4
              obtain ⟨e, f⟩ := ih _ _ _ _ h3
              have hy : y.length = (w.drop x).length := e.length_eq.symm
              have ht : (w.take x ++ y).take x = w.take x := by
                by_cases hxw : x ≤ w.length
                · rw [List.take_append_of_le_length (by simp; omega), List.take_take, Nat.min_self]
                · have : y = [] := List.eq_nil_of_length_eq_zero (by rw [hy]; simp; omega)
                  rw [this, List.append_nil, List.take_take, Nat.min_self]
              have hd : (w.take x ++ y).drop x = y := by
                by_cases hxw : x ≤ w.length
                · rw [List.drop_append, List.drop_eq_nil_of_le (by simp; omega)]
                  simp [Nat.min_eq_left hxw]
                · have : y = [] := List.eq_nil_of_length_eq_zero (by rw [hy]; simp; omega)
                  rw [this, List.append_nil]
                  exact List.drop_eq_nil_of_le (by simp; omega)
              constructor
              · conv => lhs; rw [← List.take_append_drop x w]
                exact List.rel_append (caseStep_refl _) e
              · rw [dnAdv_congr h1 ht]
                simp only [ok_bind, hx, if_false, ht, hd]
                rw [f]; simp

/-! ### Rdata with well-formed names -/

theorem dnNameS_bytes : ∀ (l : List UInt8) (w : List UInt8) (rem : Nat), (0 : UInt8) ∉ l →
    dnNameS (l ++ w) (l.length + rem) = (do
      let (pre, rest, rem') ← dnNameS w rem
      ok (l.map lower ++ pre, rest, rem')) := by
  intro l
  induction l with
  | nil =>
    intro w rem _
    simp only [List.nil_append, List.length_nil, Nat.zero_add, List.map_nil]
    cases dnNameS w rem <;> rfl
  | cons c l ih =>
    intro w rem h0
    simp only [List.mem_cons, not_or] at h0
    have hc : c ≠ 0 := fun h => h0.1 h.symm
    rw [List.cons_append, List.length_cons, show l.length + 1 + rem = (l.length + rem) + 1 by omega]
    simp only [dnNameS, hc, if_false]
    rw [ih w rem h0.2]
    cases dnNameS w rem with
    | ok a => rfl
    | _ => rfl

theorem dnNameS_wire : ∀ (n : Name) (rest : List UInt8), (∀ l ∈ n, LabelOK l) → NoZero n →
    dnNameS (wire n ++ rest) ((wire n).length + rest.length) = ok (wire (lowerName n), rest, rest.length) := by
  intro n
  induction n with
  | nil =>
    intro rest _ _
    simp only [wire, lowerName, List.map_nil, List.cons_append, List.nil_append, List.length_singleton]
    rw [show 1 + rest.length = rest.length + 1 by omega]
    simp [dnNameS]
  | cons l n ih =>
    intro rest hl h0
    have hlo := hl l (by simp)
    have e : wire (l :: n) ++ rest = (UInt8.ofNat l.length :: l) ++ (wire n ++ rest) := by simp [wire]
    have hsmall : ∀ k < 64, lower (UInt8.ofNat k) = UInt8.ofNat k := by decide +kernel
    have hne : ∀ k < 64, 1 ≤ k → UInt8.ofNat k ≠ 0 := by decide +kernel
    rw [e, show (wire (l :: n)).length + rest.length =
      (UInt8.ofNat l.length :: l).length + ((wire n).length + rest.length) by simp [wire]; omega]
    rw [dnNameS_bytes, ih rest (fun l h => hl l (by simp [h])) (fun l h => h0 l (by simp [h]))]
    · have := hlo.2
      simp [wire, lowerName, hsmall l.length (by omega)]
    · simp only [List.mem_cons, not_or]
      exact ⟨fun h => hne l.length (by have := hlo.2; omega) hlo.1 h.symm, h0 l (by simp)⟩

theorem wire_lower_length : ∀ n : Name, (wire (lowerName n)).length = (wire n).length := by
  intro n
  induction n with
  | nil => rfl
  | cons l n ih => simpa [wire, lowerName] using ih

theorem lowered_length {P ts w w'} (h : Lowered P ts w w') : w'.length = w.length := by
  induction h with
  | done => rfl
  | @name t ts n rest rest' _ _ _ _ ih =>
    rw [List.length_append, List.length_append, ih]
    congr 1
    exact wire_lower_length n
  | field _ _ _ _ ih => simp [ih]

/-- Field types for which the loop agrees with the layout. -/
def DnGood (t : Rdf) : Prop := t ≠ .ipv6prefix ∧ t ≠ .eui64 ∧ t ≠ .ednsOptRdata

instance : DecidablePred DnGood := fun t => by unfold DnGood; infer_instance

theorem dnAdv_field {t : Rdf} {f rest : List UInt8} {rem : Nat} (hg : DnGood t) (hn : ¬ IsName t)
    (hs : dnStop t = false) (hf : FieldOK t f) : dnAdv t (f ++ rest) rem = ok (some f.length) := by
  cases t <;> simp [DnGood, dnStop, IsName, FieldOK] at hg hn hs hf <;> simp [dnAdv, hf]
  case string | salt | hash =>
    obtain ⟨l, s, rfl, h⟩ := hf
    simp [rd, h]

theorem dnS_lowered {ts : List Rdf} {w w' : List UInt8} (h : Lowered NoZero ts w w')
    (hg : ∀ t ∈ ts, DnGood t) : dnS ts w w.length = ok (.success, w') := by
  induction h with
  | @done ts => cases ts <;> simp [dnS]
  | @name t ts n rest rest' h1 h2 h3 h4 ih =>
    have hne : (wire n ++ rest).length ≠ 0 := by cases n <;> simp [wire]
    simp only [dnS, hne, if_false, h1, if_true]
    rw [List.length_append, dnNameS_wire n rest h2.1 h3]
    simp only [ok_bind]
    rw [ih (fun t ht => hg t (by simp [ht]))]
    simp
  | @field t ts f rest rest' h1 h2 h3 h4 ih =>
    have hne : (f ++ rest).length ≠ 0 := by
      intro h; exact h2 (List.eq_nil_of_length_eq_zero h)
    have hname : ¬ IsName t := by
      intro h; cases t <;> simp [IsName] at h <;> simp [FieldOK] at h1
    simp only [dnS, hne, if_false, hname]
    by_cases hs : dnStop t = true
    · have ht : Terminal t := by cases t <;> simp [dnStop] at hs <;> simp [Terminal]
      have hr := h3 ht
      subst hr
      have := lowered_length h4
      have : rest' = [] := List.eq_nil_of_length_eq_zero (by simpa using this)
      subst this
      simp [hs]
    · have hs' : dnStop t = false := by simpa using hs
      rw [dnAdv_field (hg t (by simp)) hname hs' h1]
      simp only [hs', Bool.false_eq_true, if_false, ok_bind]
      rw [if_neg (by simp)]
      rw [List.drop_left, List.take_left, List.length_append, Nat.add_sub_cancel_left,
        ih (fun t ht => hg t (by simp [ht]))]
      simp

/-! ### Memory safety -/

/-- Fields that read nothing, whatever is left. -/
def NoRead : Rdf → Bool
  | .int8 | .int16 | .int32 | .rrtype | .ipv4 | .ipv6 | .eui48
  | .repstring | .bytes | .bytesB64 | .bytesStr | .typeBitmap | .svcparams => true
  | _ => false

/-- At most one name, and nothing that reads after it. -/
def SafeTail : List Rdf → Bool
  | [] => true
  | t :: ts => if IsName t then ts.all NoRead else t ≠ .eui64 ∧ t ≠ .ednsOptRdata ∧ SafeTail ts

theorem dnS_noread : ∀ (ts : List Rdf) (w : List UInt8) (rem : Nat), ts.all NoRead = true →
    (dnS ts w rem).Returns := by
  intro ts
  induction ts with
  | nil => intro w rem _; unfold dnS; split <;> simp
  | cons t ts ih =>
    intro w rem h
    simp only [List.all_cons, Bool.and_eq_true] at h
    unfold dnS
    by_cases hr : rem = 0
    · simp [hr]
    · simp only [hr, if_false]
      have h2 := h.2
      have h1 := h.1
      cases t <;> simp only [NoRead, Bool.false_eq_true] at h1 <;> simp only [IsName, dnStop, if_false, if_true, dnAdv,
        Bool.false_eq_true, ok_bind, returns_ok] <;>
      · split
        · simp
        · apply Returns.bind (ih _ _ h2)
          intro a _; simp

theorem dnNameS_cases (w : List UInt8) : ∀ (rem : Nat), rem ≤ w.length →
    (∃ pre rest, dnNameS w rem = ok (pre, rest, rem - pre.length) ∧ pre.length ≤ rem ∧
      rest = w.drop pre.length ∧ 0 ∈ w.take rem) ∨
    (∃ pre, dnNameS w rem = ok (pre, w.drop rem, sizeMax) ∧ 0 ∉ w.take rem) := by
  induction w with
  | nil =>
    intro rem h
    have : rem = 0 := by simpa using h
    subst this
    exact Or.inr ⟨[], rfl, by simp⟩
  | cons c w ih =>
    intro rem h
    cases rem with
    | zero => exact Or.inr ⟨[], rfl, by simp⟩
    | succ rem =>
      simp only [dnNameS]
      by_cases hc : c = 0
      · left
        exact ⟨[0], w, by simp [hc], by simp, by simp, by simp [hc]⟩
      · simp only [hc, if_false]
        have hc' : ¬ 0 = c := fun h => hc h.symm
        rcases ih rem (by simpa using h) with ⟨pre, rest, h1, h2, h3, h4⟩ | ⟨pre, h1, h2⟩
        · left
          exact ⟨lower c :: pre, rest, by simp [h1], by simp; omega, by simpa using h3, by simp [h4]⟩
        · right
          exact ⟨lower c :: pre, by simp [h1], by simp [h2, hc']⟩

theorem dnS_safe : ∀ (ts : List Rdf) (w : List UInt8) (rem : Nat), SafeTail ts = true → rem ≤ w.length →
    (dnS ts w rem).Returns := by
  intro ts
  induction ts with
  | nil => intro w rem _ _; unfold dnS; split <;> simp
  | cons t ts ih =>
    intro w rem h hl
    unfold dnS
    by_cases hr : rem = 0
    · simp [hr]
    · simp only [hr, if_false]
      by_cases hn : IsName t
      · simp only [SafeTail, hn, if_true] at h ⊢
        rcases dnNameS_cases w rem hl with ⟨pre, rest, h1, -⟩ | ⟨pre, h1, -⟩ <;>
        · rw [h1]
          simp only [ok_bind]
          exact Returns.bind (dnS_noread ts _ _ h) (fun a _ => by simp)
      · simp only [SafeTail, hn, if_false, Bool.decide_and, Bool.and_eq_true, decide_eq_true_eq] at h ⊢
        have hst : SafeTail ts = true := by simpa using h.2.2
        by_cases hs : dnStop t = true
        · simp [hs]
        · simp only [hs, if_false, Bool.false_eq_true]
          have hk : ∀ x, x ≤ rem → (dnS ts (w.drop x) (rem - x)).Returns := fun x hx =>
            ih _ _ hst (by simp; omega)
          have hadv : ∃ a, dnAdv t w rem = ok a := by
            have hw : 0 < w.length := by omega
            cases t <;> simp [dnStop] at hs <;> simp [IsName] at hn <;> simp at h <;>
              simp [dnAdv, rd_of_lt hw]
            split <;> simp
          obtain ⟨a, ha⟩ := hadv
          rw [ha]
          simp only [ok_bind]
          cases a with
          | none => simp
          | some x =>
            simp only
            by_cases hx : rem < x
            · simp [hx]
            · simp only [hx, if_false]
              exact Returns.bind (hk x (by omega)) (fun a _ => by simp)

/-- Two names one after the other: a missing terminator of the first makes the second read past the end. -/
theorem dnS_two {t1 t2 : Rdf} {ts : List Rdf} (h1 : IsName t1) (h2 : IsName t2) (hts : ts.all NoRead = true)
    (w : List UInt8) :
    (w ≠ [] ∧ 0 ∉ w → dnS (t1 :: t2 :: ts) w w.length = ub) ∧
    (¬ (w ≠ [] ∧ 0 ∉ w) → (dnS (t1 :: t2 :: ts) w w.length).Returns) := by
  by_cases hw : w = []
  · subst hw; simp [dnS]
  · have hl : w.length ≠ 0 := fun h => hw (List.eq_nil_of_length_eq_zero h)
    rcases dnNameS_cases w w.length (Nat.le_refl _) with ⟨pre, rest, e1, e2, e3, e4⟩ | ⟨pre, e1, e2⟩
    · rw [List.take_length] at e4
      refine ⟨fun h => absurd e4 h.2, fun _ => ?_⟩
      unfold dnS
      simp only [hl, if_false, h1, if_true]
      rw [e1]; simp only [ok_bind]
      refine Returns.bind (dnS_safe _ _ _ ?_ ?_) (fun a _ => by simp)
      · simp only [SafeTail, h2, if_true]; exact hts
      · rw [e3]; simp
    · rw [List.take_length] at e2
      refine ⟨fun _ => ?_, fun h => absurd ⟨hw, e2⟩ h⟩
      unfold dnS
      simp only [hl, if_false, h1, if_true]
      rw [e1]; simp only [ok_bind]
      unfold dnS
      simp [h2, sizeMax, dnNameS]

end Wdns
