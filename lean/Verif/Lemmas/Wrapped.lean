import Verif.Props.SvcScan
import Verif.Lemmas.Behind
import Verif.Lemmas.NameEnd
import Verif.Spec.Wrapped

/-! Helper lemmas: the parser on arbitrary memory, with SvcParam sizes modulo 65536. -/

namespace Wdns
open Outcome Spec

theorem fills_iff {mem : List UInt8} {e i : Nat} : Fills mem e i ↔ i = e ∨ i < e ∧ ∃ l : UInt8, mem[i]? = some l ∧ Fills mem e (i + 1 + l.toNat) := by
  constructor
  · intro h
    cases h with
    | done => exact .inl rfl
    | more h1 h2 h3 => exact .inr ⟨h1, _, h2, h3⟩
  · rintro (rfl | ⟨h1, l, h2, h3⟩)
    · exact .done
    · exact .more h1 h2 h3

theorem runsOff_iff {mem : List UInt8} {e i : Nat} :
    RunsOff mem e i ↔ i < e ∧ (mem.length ≤ i ∨ ∃ l : UInt8, mem[i]? = some l ∧ RunsOff mem e (i + 1 + l.toNat)) := by
  constructor
  · intro h
    cases h with
    | off h1 h2 => exact ⟨h1, .inl h2⟩
    | more h1 h2 h3 => exact ⟨h1, .inr ⟨_, h2, h3⟩⟩
  · rintro ⟨h1, h2 | ⟨l, h2, h3⟩⟩
    · exact .off h1 h2
    · exact .more h1 h2 h3

theorem alpnLoop_fills {mem : List UInt8} {v n : Nat} : ∀ fuel i, n - i < fuel →
    (alpnLoop mem v n fuel i = ok n ↔ Fills mem (v + n) (v + i)) ∧ (alpnLoop mem v n fuel i = ub ↔ RunsOff mem (v + n) (v + i)) ∧
    (∀ r, alpnLoop mem v n fuel i ≠ err r) ∧ alpnLoop mem v n fuel i ≠ abort
  | 0, i, h => by omega
  | fuel + 1, i, h => by
    rw [fills_iff, runsOff_iff, alpnLoop]
    by_cases hi : i < n
    · rw [if_pos hi]
      by_cases hl : v + i < mem.length
      · rw [rd_of_lt hl, ok_bind]
        obtain ⟨h1, h2, h3, h4⟩ := alpnLoop_fills (mem := mem) (v := v) (n := n) fuel (i + 1 + (mem[v + i]).toNat) (by omega)
        have e : mem[v + i]? = some mem[v + i] := List.getElem?_eq_getElem hl
        refine ⟨?_, ?_, h3, h4⟩
        · rw [h1, e]
          constructor
          · intro h; exact .inr ⟨by omega, _, rfl, by rw [show v + i + 1 + (mem[v + i]).toNat = v + (i + 1 + (mem[v + i]).toNat) by omega]; exact h⟩
          · rintro (h | ⟨_, l, hl, h⟩)
            · omega
            · cases hl; rw [show v + i + 1 + (mem[v + i]).toNat = v + (i + 1 + (mem[v + i]).toNat) by omega] at h; exact h
        · rw [h2, e]
          constructor
          · intro h; exact ⟨by omega, .inr ⟨_, rfl, by rw [show v + i + 1 + (mem[v + i]).toNat = v + (i + 1 + (mem[v + i]).toNat) by omega]; exact h⟩⟩
          · rintro ⟨_, h | ⟨l, hl, h⟩⟩
            · omega
            · cases hl; rw [show v + i + 1 + (mem[v + i]).toNat = v + (i + 1 + (mem[v + i]).toNat) by omega] at h; exact h
      · have e : mem[v + i]? = none := List.getElem?_eq_none (by omega)
        have hr : rd mem (v + i) = ub := by simp [rd, e]
        rw [hr, ub_bind, e]
        refine ⟨⟨by simp, ?_⟩, ⟨fun _ => ⟨by omega, .inl (by omega)⟩, fun _ => rfl⟩, by simp, by simp⟩
        rintro (h | ⟨_, l, h, _⟩)
        · omega
        · cases h
    · rw [if_neg hi]
      refine ⟨?_, ?_, by simp, by simp⟩
      · rw [ok.injEq]
        constructor
        · rintro rfl; exact .inl rfl
        · rintro (h | ⟨h, _⟩) <;> omega
      · constructor
        · simp
        · rintro ⟨h, _⟩; omega

/-- The judgement of a value. -/
theorem validate_iff {mem : List UInt8} {key n v : Nat} :
    (svcparamKeyValidate mem key n v = ok true ↔ ValueIn mem key n v) ∧
    (svcparamKeyValidate mem key n v = ub ↔ key = 1 ∧ RunsOff mem (v + n) v) ∧
    (svcparamKeyValidate mem key n v = ok true ∨ svcparamKeyValidate mem key n v = ok false ∨ svcparamKeyValidate mem key n v = ub) := by
  by_cases h1 : key = 1
  · subst h1
    unfold svcparamKeyValidate ValueIn
    rw [if_neg (by decide), if_pos rfl]
    by_cases hn : n = 0
    · subst hn
      rw [if_pos rfl]
      refine ⟨by simp, ?_, by simp⟩
      constructor
      · simp
      · rintro ⟨_, h⟩; rw [runsOff_iff] at h; omega
    · rw [if_neg hn]
      obtain ⟨h1, h2, h3, h4⟩ := alpnLoop_fills (mem := mem) (v := v) (n := n) (n + 1) 0 (by omega)
      have h5 := alpnLoop_ne_hang (mem := mem) (val := v) (valLen := n) (n + 1) 0 (by omega) (by omega)
      simp only [Nat.add_zero] at h1 h2
      rw [← h1, ← h2]
      cases ha : alpnLoop mem v n (n + 1) 0 with
      | ok i => simp [SvcLenOK, hn]; exact Classical.em _
      | err r => exact absurd ha (h3 r)
      | ub => simp
      | hang => exact absurd ha h5
      | abort => exact absurd ha h4
  · have : ∃ b, svcparamKeyValidate mem key n v = ok b ∧ (b = true ↔ SvcLenOK key n) := by
      by_cases k0 : key = 0
      · subst k0; exact ⟨_, rfl, by simp [SvcLenOK]⟩
      by_cases k2 : key = 2
      · subst k2; exact ⟨_, rfl, by simp [SvcLenOK]⟩
      by_cases k3 : key = 3
      · subst k3; exact ⟨_, rfl, by simp [SvcLenOK]⟩
      by_cases k4 : key = 4
      · subst k4; exact ⟨_, rfl, by simp [SvcLenOK]⟩
      by_cases k5 : key = 5
      · subst k5; exact ⟨_, rfl, by simp [SvcLenOK]⟩
      by_cases k6 : key = 6
      · subst k6; exact ⟨_, rfl, by simp [SvcLenOK]⟩
      by_cases k7 : key = 65535
      · subst k7; exact ⟨_, rfl, by simp [SvcLenOK]⟩
      refine ⟨true, by simp [svcparamKeyValidate, *], ?_⟩
      unfold SvcLenOK
      split <;> simp_all
    obtain ⟨b, hb, hb'⟩ := this
    rw [hb]
    unfold ValueIn
    refine ⟨?_, by simp [h1], by cases b <;> simp⟩
    rw [ok.injEq, hb']
    exact ⟨fun h => ⟨h, fun h' => absurd h' h1⟩, fun h => h.1⟩

theorem svc_step_eq {mem : List UInt8} {i e fuel : Nat} {out : List UInt8} (h4 : i + 4 ≤ e) (hm : e ≤ mem.length) :
    pSvcparams mem (fuel + 1) ⟨i, e - i, out⟩ =
      if paramSize mem i > e - i then err .outOfBounds
      else svcparamKeyValidate mem (u16At mem i) (u16At mem (i + 2)) (i + 4) >>= fun v =>
        if v = false then err .parseError else pSvcparams mem fuel ⟨i + paramSize mem i, e - (i + paramSize mem i), out ++ (mem.drop i).take (paramSize mem i)⟩ := by
  rw [pSvcparams]
  simp only
  rw [if_pos (by omega), if_neg (by omega)]
  have h0 := rd_of_lt (show i < mem.length by omega)
  have h1 := rd_of_lt (show i + 1 < mem.length by omega)
  have h2 := rd_of_lt (show i + 2 < mem.length by omega)
  have h3 := rd_of_lt (show i + 3 < mem.length by omega)
  rw [u16At_of_rd h0 h1, u16At_of_rd h2 h3]
  simp only [h0, h1, h2, h3, ok_bind]
  have hp : paramSize mem i = (2 + 2 + be16 mem[i + 2] mem[i + 3]) % 65536 := by
    unfold paramSize; rw [u16At_of_rd h2 h3]
  rw [← hp]
  by_cases hk : paramSize mem i > e - i
  · rw [if_pos hk, if_pos hk]
  · rw [if_neg hk, if_neg hk]
    congr 1
    funext v
    by_cases hv : v = false
    · rw [if_pos hv, if_pos hv]
    · rw [if_neg hv, if_neg hv]
      unfold pCopy
      simp only
      rw [if_neg (by omega), rdN_ok (by omega)]
      simp only [ok_bind]
      rw [show e - i - paramSize mem i = e - (i + paramSize mem i) by omega]

theorem svcRun_iff {mem : List UInt8} {e i j : Nat} : SvcRun mem e i j ↔ i = j ∨ i + 4 ≤ e ∧ i + paramSize mem i ≤ e ∧
    ValueIn mem (u16At mem i) (u16At mem (i + 2)) (i + 4) ∧ SvcRun mem e (i + paramSize mem i) j := by
  constructor
  · intro h
    cases h with
    | here => exact .inl rfl
    | step h1 h2 h3 h4 => exact .inr ⟨h1, h2, h3, h4⟩
  · rintro (rfl | ⟨h1, h2, h3, h4⟩)
    · exact .here
    · exact .step h1 h2 h3 h4

/-- The parameter at `j` is one that takes no octets, or an `alpn` that leads out of the readable memory. -/
def StallAt (mem : List UInt8) (e j : Nat) : Prop := j + 4 ≤ e ∧ u16At mem (j + 2) = 65532 ∧ ValueIn mem (u16At mem j) 65532 (j + 4)
def OffAt (mem : List UInt8) (e j : Nat) : Prop :=
  j + 4 ≤ e ∧ j + paramSize mem j ≤ e ∧ u16At mem j = 1 ∧ RunsOff mem (j + 4 + u16At mem (j + 2)) (j + 4)

theorem stall_zero {mem : List UInt8} {i : Nat} (h : paramSize mem i = 0) : u16At mem (i + 2) = 65532 := by
  have := u16At_lt mem (i + 2)
  unfold paramSize at h; omega

theorem pSvcparams_stall {mem : List UInt8} {i e : Nat} (hm : e ≤ mem.length) (h : StallAt mem e i) : ∀ fuel out,
    pSvcparams mem fuel ⟨i, e - i, out⟩ = hang
  | 0, _ => rfl
  | fuel + 1, out => by
    have hp : paramSize mem i = 0 := by unfold paramSize; rw [h.2.1]
    rw [svc_step_eq h.1 hm, hp, if_neg (by omega)]
    have hv := validate_iff (mem := mem) (key := u16At mem i) (n := u16At mem (i + 2)) (v := i + 4) |>.1.mpr (by rw [h.2.1]; exact h.2.2)
    rw [hv, ok_bind, if_neg (by simp), Nat.add_zero]
    exact pSvcparams_stall hm h fuel _

theorem svcRun_stall {mem : List UInt8} {e i j : Nat} (h : SvcRun mem e i j) (hp : paramSize mem i = 0) : i = j := by
  induction h with
  | here => rfl
  | step h1 h2 h3 h4 ih => rw [hp, Nat.add_zero] at ih; exact ih hp

theorem pSvcparams_exact {mem : List UInt8} {e : Nat} (hm : e ≤ mem.length) : ∀ fuel i out, i ≤ e → e - i < fuel →
    (∀ st, pSvcparams mem fuel ⟨i, e - i, out⟩ = ok st ↔ SvcRun mem e i e ∧ st = ⟨e, 0, out ++ (mem.drop i).take (e - i)⟩) ∧
    (pSvcparams mem fuel ⟨i, e - i, out⟩ = hang ↔ ∃ j, SvcRun mem e i j ∧ StallAt mem e j) ∧
    (pSvcparams mem fuel ⟨i, e - i, out⟩ = ub ↔ ∃ j, SvcRun mem e i j ∧ OffAt mem e j)
  | 0, i, out, _, h => by omega
  | fuel + 1, i, out, hi, hf => by
    by_cases h0 : i = e
    · subst h0
      have hr : pSvcparams mem (fuel + 1) ⟨i, i - i, out⟩ = ok ⟨i, 0, out⟩ := by
        rw [pSvcparams]; simp
      have hst : ∀ j, SvcRun mem i i j → j = i := fun j h => by rw [svcRun_iff] at h; omega
      rw [hr]
      refine ⟨fun st => ?_, ?_, ?_⟩
      · rw [ok.injEq]
        simp only [Nat.sub_self, List.take_zero, List.append_nil]
        exact ⟨fun h => ⟨.here, h.symm⟩, fun h => h.2.symm⟩
      · refine ⟨by simp, ?_⟩
        rintro ⟨j, h1, h2⟩; have := hst j h1; have := h2.1; omega
      · refine ⟨by simp, ?_⟩
        rintro ⟨j, h1, h2⟩; have := hst j h1; have := h2.1; omega
    by_cases h4 : i + 4 ≤ e
    · rw [svc_step_eq h4 hm]
      by_cases hk : paramSize mem i > e - i
      · rw [if_pos hk]
        have hst : ∀ j, SvcRun mem e i j → j = i := fun j h => by rw [svcRun_iff] at h; omega
        refine ⟨fun st => ⟨by simp, fun h => ?_⟩, ⟨by simp, ?_⟩, ⟨by simp, ?_⟩⟩
        · have := hst e h.1; omega
        · rintro ⟨j, h1, h2⟩
          have := hst j h1; subst this
          have : paramSize mem j = 0 := by unfold paramSize; rw [h2.2.1]
          omega
        · rintro ⟨j, h1, h2⟩
          have := hst j h1; subst this
          have := h2.2.1; omega
      · rw [if_neg hk]
        obtain ⟨v1, v2, v3⟩ := validate_iff (mem := mem) (key := u16At mem i) (n := u16At mem (i + 2)) (v := i + 4)
        rcases v3 with hv | hv | hv
        · have hval := v1.mp hv
          rw [hv, ok_bind, if_neg (by simp)]
          by_cases hp : paramSize mem i = 0
          · have hs : StallAt mem e i := ⟨h4, stall_zero hp, by rw [← stall_zero hp]; exact hval⟩
            rw [hp, Nat.add_zero, pSvcparams_stall hm hs]
            refine ⟨fun st => ⟨by simp, fun h => absurd (svcRun_stall h.1 hp) h0⟩, ⟨fun _ => ⟨i, .here, hs⟩, fun _ => rfl⟩, ⟨by simp, ?_⟩⟩
            rintro ⟨j, h1, h2⟩
            have := svcRun_stall h1 hp
            subst this
            have := v2.mpr ⟨h2.2.2.1, h2.2.2.2⟩
            rw [hv] at this; cases this
          · obtain ⟨i1, i2, i3⟩ := pSvcparams_exact hm fuel (i + paramSize mem i) (out ++ (mem.drop i).take (paramSize mem i)) (by omega) (by omega)
            refine ⟨fun st => ?_, ?_, ?_⟩
            · rw [i1, svcRun_iff (i := i)]
              have hc : out ++ (mem.drop i).take (paramSize mem i) ++ (mem.drop (i + paramSize mem i)).take (e - (i + paramSize mem i)) =
                  out ++ (mem.drop i).take (e - i) := by
                rw [show e - i = paramSize mem i + (e - (i + paramSize mem i)) by omega, List.take_add, List.drop_drop, List.append_assoc]
              rw [hc]
              constructor
              · rintro ⟨h1, h2⟩; exact ⟨.inr ⟨h4, by omega, hval, h1⟩, h2⟩
              · rintro ⟨h1 | ⟨_, _, _, h1⟩, h2⟩
                · exact absurd h1 h0
                · exact ⟨h1, h2⟩
            · rw [i2]
              constructor
              · rintro ⟨j, h1, h2⟩; exact ⟨j, .step h4 (by omega) hval h1, h2⟩
              · rintro ⟨j, h1, h2⟩
                rw [svcRun_iff] at h1
                rcases h1 with rfl | ⟨_, _, _, h1⟩
                · exact absurd (by unfold paramSize; rw [h2.2.1]) hp
                · exact ⟨j, h1, h2⟩
            · rw [i3]
              constructor
              · rintro ⟨j, h1, h2⟩; exact ⟨j, .step h4 (by omega) hval h1, h2⟩
              · rintro ⟨j, h1, h2⟩
                rw [svcRun_iff] at h1
                rcases h1 with rfl | ⟨_, _, _, h1⟩
                · have := v2.mpr ⟨h2.2.2.1, h2.2.2.2⟩
                  rw [hv] at this; cases this
                · exact ⟨j, h1, h2⟩
        · have hno : ¬ ValueIn mem (u16At mem i) (u16At mem (i + 2)) (i + 4) := fun h => by
            have := v1.mpr h; rw [hv] at this; cases this
          have hst : ∀ j, SvcRun mem e i j → j = i := fun j h => by
            rw [svcRun_iff] at h
            rcases h with rfl | ⟨_, _, h, _⟩
            · rfl
            · exact absurd h hno
          rw [hv, ok_bind, if_pos rfl]
          refine ⟨fun st => ⟨by simp, fun h => ?_⟩, ⟨by simp, ?_⟩, ⟨by simp, ?_⟩⟩
          · have := hst e h.1; omega
          · rintro ⟨j, h1, h2⟩
            have := hst j h1; subst this
            exact absurd (by rw [h2.2.1]; exact h2.2.2) hno
          · rintro ⟨j, h1, h2⟩
            have := hst j h1; subst this
            have := v2.mpr ⟨h2.2.2.1, h2.2.2.2⟩
            rw [hv] at this; cases this
        · have hno : ¬ ValueIn mem (u16At mem i) (u16At mem (i + 2)) (i + 4) := fun h => by
            have := v1.mpr h; rw [hv] at this; cases this
          have hst : ∀ j, SvcRun mem e i j → j = i := fun j h => by
            rw [svcRun_iff] at h
            rcases h with rfl | ⟨_, _, h, _⟩
            · rfl
            · exact absurd h hno
          rw [hv, ub_bind]
          refine ⟨fun st => ⟨by simp, fun h => ?_⟩, ⟨by simp, ?_⟩, ⟨fun _ => ⟨i, .here, h4, by omega, (v2.mp hv).1, (v2.mp hv).2⟩, fun _ => rfl⟩⟩
          · have := hst e h.1; omega
          · rintro ⟨j, h1, h2⟩
            have := hst j h1; subst this
            exact absurd (by rw [h2.2.1]; exact h2.2.2) hno
    · have hr : pSvcparams mem (fuel + 1) ⟨i, e - i, out⟩ = err .parseError := by
        rw [pSvcparams]; simp only; rw [if_pos (by omega), if_pos (by omega)]
      have hst : ∀ j, SvcRun mem e i j → j = i := fun j h => by rw [svcRun_iff] at h; omega
      rw [hr]
      refine ⟨fun st => ⟨by simp, fun h => ?_⟩, ⟨by simp, ?_⟩, ⟨by simp, ?_⟩⟩
      · have := hst e h.1; omega
      · rintro ⟨j, h1, h2⟩; have := hst j h1; have := h2.1; omega
      · rintro ⟨j, h1, h2⟩; have := hst j h1; have := h2.1; omega

theorem encEnd_widen {mem : List UInt8} {eop o e : Nat} (h : EncEnd (mem.take eop) o e) : EncEnd (mem.take (eop + 1)) o e := by
  have key : ∀ {i : Nat} {b : UInt8}, (mem.take eop)[i]? = some b → (mem.take (eop + 1))[i]? = some b := by
    intro i b h
    have hi := getElem?_some_lt h
    simp only [List.length_take] at hi
    rw [getElem?_take_lt (by omega)] at h
    rw [getElem?_take_lt (by omega)]
    exact h
  induction h with
  | root h => exact .root (key h)
  | ptr h h0 => exact .ptr (key h) h0
  | label h h1 h2 _ ih => exact .label (key h) h1 h2 ih

/-- The end of `_wdns_parse_rdata`. -/
def svcFin (st : PState) : Outcome CRdata := if st.bytes ≠ 0 then err .outOfBounds else ok ⟨st.out.length % 65536, st.out⟩

theorem svc_head {mem : List UInt8} {eop o rdlen ty : Nat} (hm : eop ≤ mem.length) (h64 : eop < 2 ^ 64) (hfit : o + rdlen ≤ eop)
    (ht : ty = 64 ∨ ty = 65) (h2 : 2 < rdlen) :
    (∃ n i, Denotes (mem.take (eop + 1)) 0 (o + 2) n ∧ WF n ∧ EncEnd (mem.take (eop + 1)) (o + 2) i ∧ i ≤ o + rdlen ∧
      parseRdata mem 0 eop o rdlen ty 1 = pSvcparams mem (o + rdlen - i + 1) ⟨i, o + rdlen - i, (mem.drop o).take 2 ++ wire n⟩ >>= svcFin) ∨
    ((∀ n i, Denotes (mem.take (eop + 1)) 0 (o + 2) n → WF n → EncEnd (mem.take (eop + 1)) (o + 2) i → o + rdlen < i) ∧
      parseRdata mem 0 eop o rdlen ty 1 ≠ hang ∧ (eop < mem.length → parseRdata mem 0 eop o rdlen ty 1 ≠ ub) ∧
      (∀ r i, parseRdata mem 0 eop o rdlen ty 1 = ok r → EncEnd (mem.take (eop + 1)) (o + 2) i → o + rdlen < i)) := by
  have hdesc : recordDescr ty = some ⟨1, [.int16, .name, .svcparams]⟩ := by rcases ht with rfl | rfl <;> rfl
  have hint : pField mem 0 eop .int16 ⟨o, rdlen, []⟩ = ok ⟨o + 2, rdlen - 2, (mem.drop o).take 2⟩ := by
    simp only [pField, pCopy]
    rw [if_neg (by omega), rdN_ok (by omega)]
    simp
  have hall : parseRdata mem 0 eop o rdlen ty 1 = (unpackName maxlenName mem 0 eop (o + 2) >>= fun x => skipName mem (o + 2) eop >>= fun y =>
      if rdlen - 2 < y.2 then (err .outOfBounds : Outcome PState) else ok ⟨y.1, rdlen - 2 - y.2, (mem.drop o).take 2 ++ x.1.take x.2⟩) >>= fun st =>
      pFields mem 0 eop [.svcparams] st >>= svcFin := by
    rw [parseRdata_known hdesc (by decide)]
    rw [show pFields mem 0 eop [.int16, .name, .svcparams] ⟨o, rdlen, []⟩ = (pField mem 0 eop .int16 ⟨o, rdlen, []⟩ >>= fun st =>
      pFields mem 0 eop [.name, .svcparams] st) by simp only [pFields]; rw [if_neg (by omega)], hint, ok_bind]
    rw [show pFields mem 0 eop [.name, .svcparams] ⟨o + 2, rdlen - 2, (mem.drop o).take 2⟩ =
      (pField mem 0 eop .name ⟨o + 2, rdlen - 2, (mem.drop o).take 2⟩ >>= fun st => pFields mem 0 eop [.svcparams] st) by
        simp only [pFields]; rw [if_neg (by omega)]]
    rw [pField_name (by trivial)]
    generalize (unpackName maxlenName mem 0 eop (o + 2) >>= fun x => skipName mem (o + 2) eop >>= fun y =>
      if rdlen - 2 < y.2 then (err .outOfBounds : Outcome PState) else ok ⟨y.1, rdlen - 2 - y.2, (mem.drop o).take 2 ++ x.1.take x.2⟩) = z
    cases z <;> rfl
  by_cases hN : ∃ n, Denotes (mem.take (eop + 1)) 0 (o + 2) n ∧ WF n
  · obtain ⟨n, hd, hwf⟩ := hN
    obtain ⟨i, he, _⟩ := encEnd_of_denotes hd
    obtain ⟨hu, hle, hs⟩ := name_read hm h64 (Nat.zero_le _) (by omega) hd hwf he
    have hlt := encEnd_lt he
    simp only [hu, hs, ok_bind, List.take_length] at hall
    by_cases hi : i ≤ o + rdlen
    · left
      refine ⟨n, i, hd, hwf, he, hi, ?_⟩
      rw [hall, Nat.min_eq_left (by omega), if_neg (by omega), ok_bind, show rdlen - 2 - (i - (o + 2)) = o + rdlen - i by omega]
      congr 1
      rw [pFields]
      simp only
      by_cases h0 : o + rdlen - i = 0
      · rw [if_pos h0, h0]
        simp [pSvcparams]
      · rw [if_neg h0]
        simp only [pField, pFields]
        cases pSvcparams mem (o + rdlen - i + 1) ⟨i, o + rdlen - i, (mem.drop o).take 2 ++ wire n⟩ <;> rfl
    · right
      have huniq : ∀ n' i', Denotes (mem.take (eop + 1)) 0 (o + 2) n' → WF n' → EncEnd (mem.take (eop + 1)) (o + 2) i' → o + rdlen < i' := by
        intro n' i' _ _ he'
        have := encEnd_functional he he'
        omega
      refine ⟨huniq, ?_⟩
      rw [hall]
      by_cases hk : rdlen - 2 < min i eop - (o + 2)
      · rw [if_pos hk]; simp
      · rw [if_neg hk, ok_bind, show rdlen - 2 - (min i eop - (o + 2)) = 0 by omega, pFields_zero]
        exact ⟨by simp [svcFin], fun _ => by simp [svcFin], fun r i' _ he' => by have := encEnd_functional he he'; omega⟩
  · right
    have hno : ∀ nm l, unpackName maxlenName mem 0 eop (o + 2) ≠ ok (nm, l) := by
      intro nm l hu
      obtain ⟨n, hd, hwf, _⟩ := (C02_unpack_exact_overread maxlenName mem 0 eop (o + 2) _ _ (by decide) (Nat.zero_le _) (by omega)).mp hu
      exact hN ⟨n, hd, hwf⟩
    refine ⟨fun n i hd hwf _ => absurd ⟨n, hd, hwf⟩ hN, ?_⟩
    rw [hall]
    have hh := (C03_unpack_terminates maxlenName mem 0 eop (o + 2)).1
    have hub := fun hlt : eop < mem.length => (C04_unpack_safe_partial maxlenName mem 0 eop (o + 2) (by decide) hlt).1.1
    cases hu : unpackName maxlenName mem 0 eop (o + 2) with
    | ok a => exact absurd hu (hno a.1 a.2)
    | err r => simp
    | ub => exact ⟨by simp, fun h => absurd hu (hub h), by simp⟩
    | hang => exact absurd hu hh
    | abort => simp

theorem parseRdata_in_complete {mem : List UInt8} {eop o rdlen ty cls : Nat} {x : List UInt8} (hm : eop ≤ mem.length) (h64 : eop < 2 ^ 64)
    (hfit : o + rdlen ≤ eop) (hl : rdlen < 65536) (h : RdataIn (mem.take (eop + 1)) eop o rdlen ty cls x) :
    parseRdata mem 0 eop o rdlen ty cls = ok ⟨x.length % 65536, x⟩ := by
  rcases h with ⟨d, hd, ha, hx⟩ | ⟨hop, rfl⟩
  · rw [parseRdata_known hd ha]
    rcases hx with hx | ⟨he, hx⟩
    · have := pFields_in_complete hfit hm h64 hx (Nat.zero_le _) (by omega) []
      rw [show o + rdlen - o = rdlen by omega] at this
      simp [this]
    · have := pFields_borrow_complete hm h64 hx (by omega) []
      rw [show eop - o = rdlen by omega] at this
      simp [this]
  · have hwl := take_drop_length mem o rdlen (by omega)
    have := parseRdata_opaque (p := 0) (eop := eop) hop (Win.mk' (mem := mem) (o := o) (n := rdlen) (by omega)) (by rw [hwl]; exact hl)
    rw [hwl] at this
    rw [this, slice_in (by omega), hwl, Nat.mod_eq_of_lt hl]

theorem fin_ok {x : Outcome PState} {e i : Nat} {mem out : List UInt8} {P : Prop} {r : CRdata}
    (h : ∀ st, x = ok st ↔ P ∧ st = ⟨e, 0, out ++ (mem.drop i).take (e - i)⟩) :
    x >>= svcFin = ok r ↔ P ∧ r = ⟨(out ++ (mem.drop i).take (e - i)).length % 65536, out ++ (mem.drop i).take (e - i)⟩ := by
  constructor
  · intro hx
    obtain ⟨st, h1, h2⟩ := bind_eq_ok.mp hx
    obtain ⟨hp, rfl⟩ := (h st).mp h1
    refine ⟨hp, ?_⟩
    simp only [svcFin, ne_eq, not_true_eq_false, if_false, ok.injEq] at h2
    exact h2.symm
  · rintro ⟨hp, rfl⟩
    rw [(h _).mpr ⟨hp, rfl⟩, ok_bind]
    simp [svcFin]

theorem fin_hang {x : Outcome PState} : x >>= svcFin = hang ↔ x = hang := by
  cases x with
  | ok st => simp only [ok_bind, svcFin]; split <;> simp
  | _ => simp

theorem fin_ub {x : Outcome PState} : x >>= svcFin = ub ↔ x = ub := by
  cases x with
  | ok st => simp only [ok_bind, svcFin]; split <;> simp
  | _ => simp

section
variable {mem : List UInt8} {eop o rdlen ty cls : Nat} (hm : eop ≤ mem.length) (h64 : eop < 2 ^ 64) (hfit : o + rdlen ≤ eop) (hl : rdlen < 65536)
include hm h64 hfit hl

/-- What the rdata parser accepts, in any memory. -/
theorem parseRdata_mem_iff {r : CRdata} :
    parseRdata mem 0 eop o rdlen ty cls = ok r ↔ ∃ x, RdataMem mem eop o rdlen ty cls x ∧ r = ⟨x.length % 65536, x⟩ := by
  constructor
  · intro h
    by_cases hs : (ty = 64 ∨ ty = 65) ∧ cls = 1 ∧ 2 < rdlen
    · obtain ⟨ht, rfl, h2⟩ := hs
      rcases svc_head hm h64 hfit ht h2 with ⟨n, i, hd, hwf, he, hi, hp⟩ | ⟨hno, _, _, hok⟩
      · rw [hp, fin_ok (pSvcparams_exact (by omega) _ _ _ hi (by omega)).1] at h
        exact ⟨_, .inr ⟨n, i, ⟨ht, rfl, h2, hd, hwf, he, hi, h.1⟩, rfl⟩, h.2⟩
      · have hnl : ¬ LongSvc (mem.take eop) o rdlen := by
          rintro ⟨o', he, hle, _⟩
          have := hok r o' h (encEnd_widen he)
          omega
        obtain ⟨x, hx, hr⟩ := (parseRdata_in_iff hm h64 hfit hl (fun _ _ => hnl)).mp h
        exact ⟨x, .inl hx, hr⟩
    · have hnl : ty = 64 ∨ ty = 65 → cls = 1 → ¬ LongSvc (mem.take eop) o rdlen := by
        rintro ht hc ⟨o', he, hle, _⟩
        have := encEnd_lt he
        exact hs ⟨ht, hc, by omega⟩
      obtain ⟨x, hx, hr⟩ := (parseRdata_in_iff hm h64 hfit hl hnl).mp h
      exact ⟨x, .inl hx, hr⟩
  · rintro ⟨x, hx | ⟨n, i, ⟨ht, rfl, h2, hd, hwf, he, hi, hrun⟩, rfl⟩, rfl⟩
    · exact parseRdata_in_complete hm h64 hfit hl hx
    · rcases svc_head hm h64 hfit ht h2 with ⟨n', i', hd', hwf', he', hi', hp⟩ | ⟨hno, _, _, hok⟩
      · have := encEnd_functional he he'
        subst this
        have h1 := (name_read hm h64 (Nat.zero_le _) (by omega) hd hwf he).1
        rw [(name_read hm h64 (Nat.zero_le _) (by omega) hd' hwf' he).1] at h1
        simp only [ok.injEq, Prod.mk.injEq] at h1
        rw [h1.1] at hp
        rw [hp, fin_ok (pSvcparams_exact (by omega) _ _ _ hi (by omega)).1]
        exact ⟨hrun, rfl⟩
      · have := hno n i hd hwf he; omega

/-- When the rdata parser does not return. -/
theorem parseRdata_mem_hang : parseRdata mem 0 eop o rdlen ty cls = hang ↔ RdataStalls mem eop o rdlen ty cls := by
  by_cases hs : (ty = 64 ∨ ty = 65) ∧ cls = 1 ∧ 2 < rdlen
  · obtain ⟨ht, rfl, h2⟩ := hs
    rcases svc_head hm h64 hfit ht h2 with ⟨n, i, hd, hwf, he, hi, hp⟩ | ⟨hno, hh, _, _⟩
    · rw [hp, fin_hang, (pSvcparams_exact (by omega) _ _ _ hi (by omega)).2.1]
      constructor
      · rintro ⟨j, h1, h3⟩; exact ⟨n, i, j, ⟨ht, rfl, h2, hd, hwf, he, hi, h1⟩, h3⟩
      · rintro ⟨n', i', j, ⟨_, _, _, hd', _, he', _, h1⟩, h3⟩
        have := encEnd_functional he he'
        subst this
        exact ⟨j, h1, h3⟩
    · constructor
      · intro h; exact absurd h hh
      · rintro ⟨n', i', j, ⟨_, _, _, hd', hwf', he', hi', h1⟩, h3⟩
        have := hno n' i' hd' hwf' he'; omega
  · constructor
    · intro h
      exact absurd h (parseRdata_hang h64 (fun ht hc i _ _ => by exact absurd ⟨ht, hc, by omega⟩ hs))
    · rintro ⟨n', i', j, ⟨ht, hc, h2, _⟩, _⟩
      exact absurd ⟨ht, hc, h2⟩ hs

/-- When the rdata parser leaves the readable memory. -/
theorem parseRdata_mem_ub (hlt : eop < mem.length) : parseRdata mem 0 eop o rdlen ty cls = ub ↔ RdataRunsOff mem eop o rdlen ty cls := by
  by_cases hs : (ty = 64 ∨ ty = 65) ∧ cls = 1 ∧ 2 < rdlen
  · obtain ⟨ht, rfl, h2⟩ := hs
    rcases svc_head hm h64 hfit ht h2 with ⟨n, i, hd, hwf, he, hi, hp⟩ | ⟨hno, _, hh, _⟩
    · rw [hp, fin_ub, (pSvcparams_exact (by omega) _ _ _ hi (by omega)).2.2]
      constructor
      · rintro ⟨j, h1, h3⟩; exact ⟨n, i, j, ⟨ht, rfl, h2, hd, hwf, he, hi, h1⟩, h3⟩
      · rintro ⟨n', i', j, ⟨_, _, _, hd', _, he', _, h1⟩, h3⟩
        have := encEnd_functional he he'
        subst this
        exact ⟨j, h1, h3⟩
    · constructor
      · intro h; exact absurd h (hh hlt)
      · rintro ⟨n', i', j, ⟨_, _, _, hd', hwf', he', hi', h1⟩, h3⟩
        have := hno n' i' hd' hwf' he'; omega
  · constructor
    · intro h
      exact absurd h (parseRdata_same (fun _ _ => rfl) hlt hlt h64 hfit (fun ht hc i _ _ => by exact absurd ⟨ht, hc, by omega⟩ hs)).safe
    · rintro ⟨n', i', j, ⟨ht, hc, h2, _⟩, _⟩
      exact absurd ⟨ht, hc, h2⟩ hs

end

theorem leaves_lt {mem : List UInt8} {len e : Nat} {ts o} (h : Leaves mem len e ts o) : o < e := by cases h <;> assumption

theorem name_field {mem : List UInt8} {eop src b : Nat} {t : Rdf} {out : List UInt8} (hm : eop ≤ mem.length) (h64 : eop < 2 ^ 64) (hN : IsName t)
    (hs : src < eop) {n : Name} {e : Nat} (hd : Denotes (mem.take (eop + 1)) 0 src n) (hwf : WF n) (he : EncEnd (mem.take (eop + 1)) src e) :
    pField mem 0 eop t ⟨src, b, out⟩ = if b < min e eop - src then err .outOfBounds else ok ⟨min e eop, b - (min e eop - src), out ++ wire n⟩ := by
  obtain ⟨hu, -, hk⟩ := name_read hm h64 (Nat.zero_le _) hs hd hwf he
  rw [pField_name hN]
  simp only [hu, hk, ok_bind, List.take_length]

theorem pFields_leaves {mem : List UInt8} {eop : Nat} (hm : eop ≤ mem.length) (h64 : eop < 2 ^ 64) : ∀ ts src b out, TermLast ts → src + b ≤ eop → b < 65536 →
    (pFields mem 0 eop ts ⟨src, b, out⟩ = ub ↔ Leaves mem eop (src + b) ts src)
  | [], src, b, out, _, _, _ => by
    rw [pFields]
    exact ⟨by simp, fun h => by cases h⟩
  | t :: ts, src, b, out, hT, hl, hb => by
    by_cases hb0 : b = 0
    · subst hb0
      rw [pFields_zero]
      exact ⟨by simp, fun h => by have := leaves_lt h; omega⟩
    rw [pFields]
    simp only
    rw [if_neg hb0]
    by_cases hN : IsName t
    · by_cases hD : ∃ n, Denotes (mem.take (eop + 1)) 0 src n ∧ WF n
      · obtain ⟨n, hd, hwf⟩ := hD
        obtain ⟨e, he, _⟩ := encEnd_of_denotes hd
        have hlt := encEnd_lt he
        have hno : eop = mem.length → ¬ ReachesEnd mem 0 src 0 := by
          intro hq hr
          subst hq
          have h1 := (unpackName_ub (cap := maxlenName) (by decide) (Nat.zero_le _) (by omega)).mpr hr
          rw [(name_read hm h64 (Nat.zero_le _) (by omega) hd hwf he).1] at h1
          cases h1
        rw [name_field hm h64 hN (by omega) hd hwf he]
        by_cases hk : b < min e eop - src
        · rw [if_pos hk, err_bind]
          refine ⟨by simp, fun h => ?_⟩
          cases h with
          | name _ _ h1 h2 => exact absurd h2 (hno h1)
          | svc => exact hN.elim
          | afterName _ _ _ _ he' hle _ => have := encEnd_functional he he'; omega
          | afterField _ _ _ hf => cases t <;> first | exact hf.elim | exact hN.elim
        · rw [if_neg hk, ok_bind]
          by_cases hov : e ≤ src + b
          · rw [Nat.min_eq_left (by omega)]
            have ih := pFields_leaves hm h64 ts e (b - (e - src)) (out ++ wire n) hT.2 (by omega) (by omega)
            rw [show e + (b - (e - src)) = src + b by omega] at ih
            rw [ih]
            constructor
            · intro h; exact .afterName (by omega) hN hd hwf he hov h
            · intro h
              cases h with
              | name _ _ h1 h2 => exact absurd h2 (hno h1)
              | svc => exact hN.elim
              | afterName _ _ _ _ he' _ h => have := encEnd_functional he he'; subst this; exact h
              | afterField _ _ _ hf => cases t <;> first | exact hf.elim | exact hN.elim
          · rw [show b - (min e eop - src) = 0 by omega, pFields_zero]
            refine ⟨by simp, fun h => ?_⟩
            cases h with
            | name _ _ h1 h2 => exact absurd h2 (hno h1)
            | svc => exact hN.elim
            | afterName _ _ _ _ he' hle _ => have := encEnd_functional he he'; omega
            | afterField _ _ _ hf => cases t <;> first | exact hf.elim | exact hN.elim
      · have hno : ∀ a, unpackName maxlenName mem 0 eop src ≠ ok a := by
          rintro ⟨nm, l⟩ hu
          obtain ⟨n, hd, hwf, _⟩ := (C02_unpack_exact_overread maxlenName mem 0 eop src _ _ (by decide) (Nat.zero_le _) (by omega)).mp hu
          exact hD ⟨n, hd, hwf⟩
        have hub : unpackName maxlenName mem 0 eop src = ub ↔ eop = mem.length ∧ ReachesEnd mem 0 src 0 := by
          by_cases hq : eop = mem.length
          · subst hq
            rw [unpackName_ub (by decide) (Nat.zero_le _) (by omega)]
            exact ⟨fun h => ⟨rfl, h⟩, fun h => h.2⟩
          · have := (C04_unpack_safe_partial maxlenName mem 0 eop src (by decide) (by omega)).1.1
            exact ⟨fun h => absurd h this, fun h => absurd h.1 hq⟩
        rw [pField_name hN]
        have hb : (unpackName maxlenName mem 0 eop src >>= fun x => skipName mem src eop >>= fun y =>
            if b < y.2 then (err .outOfBounds : Outcome PState) else ok ⟨y.1, b - y.2, out ++ x.1.take x.2⟩) >>= (fun st => pFields mem 0 eop ts st) = ub ↔
            unpackName maxlenName mem 0 eop src = ub := by
          cases hu : unpackName maxlenName mem 0 eop src with
          | ok a => exact absurd hu (hno a)
          | _ => simp
        rw [hb, hub]
        constructor
        · rintro ⟨h1, h2⟩; exact .name (by omega) hN h1 h2
        · intro h
          cases h with
          | name _ _ h1 h2 => exact ⟨h1, h2⟩
          | svc => exact hN.elim
          | afterName _ _ hd hwf _ _ _ => exact absurd ⟨_, hd, hwf⟩ hD
          | afterField _ _ _ hf => cases t <;> first | exact hf.elim | exact hN.elim
    · by_cases hsv : t = .svcparams
      · subst hsv
        have hts : ts = [] := hT.1 trivial
        subst hts
        have hx := pSvcparams_exact (mem := mem) (e := src + b) (by omega) (b + 1) src out (by omega) (by omega)
        rw [show src + b - src = b by omega] at hx
        simp only [pField]
        have : (pSvcparams mem (b + 1) ⟨src, b, out⟩ >>= fun st => pFields mem 0 eop [] st) = ub ↔ pSvcparams mem (b + 1) ⟨src, b, out⟩ = ub := by
          cases pSvcparams mem (b + 1) ⟨src, b, out⟩ <;> simp [pFields]
        rw [this, hx.2.2]
        constructor
        · rintro ⟨j, h1, h2, h3, h4, h5⟩; exact .svc (by omega) h1 h2 h3 h4 h5
        · intro h
          cases h with
          | name _ h => exact absurd h hN
          | svc _ h1 h2 h3 h4 h5 => exact ⟨_, h1, h2, h3, h4, h5⟩
          | afterName _ h => exact absurd h hN
          | afterField _ _ _ _ h => exact absurd trivial h
      · have hw := Win.mk' (mem := mem) (o := src) (n := b) (by omega)
        have hwl := take_drop_length mem src b (by omega)
        have hspec := pField_spec (p := 0) (eop := eop) (out := out) hN hw
          (by intro h; rw [h] at hwl; simp at hwl; omega) (by rw [hwl]; exact hb) (fun h => absurd h hsv)
        rw [hwl] at hspec
        have hback : ∀ {o'}, src ≤ o' → o' ≤ src + b → FieldOK t ((mem.drop src).take (o' - src)) → ¬ Terminal t →
            pField mem 0 eop t ⟨src, b, out⟩ = ok ⟨o', src + b - o', out ++ (mem.drop src).take (o' - src)⟩ := by
          intro o' h1 h2 hf hterm
          have hfl : ((mem.drop src).take (o' - src)).length = o' - src := take_drop_length _ _ _ (by omega)
          have hr : ((mem.drop o').take (src + b - o')).length = src + b - o' := take_drop_length _ _ _ (by omega)
          have hw' : Win mem src ((mem.drop src).take (o' - src) ++ (mem.drop o').take (src + b - o')) := by
            have h := hw
            rw [show b = (o' - src) + (src + b - o') by omega, List.take_add, List.drop_drop, show src + (o' - src) = o' by omega] at h
            exact h
          rw [pField_complete hf hw' (by
              intro h; have := congrArg List.length h
              rw [List.length_append, hfl, hr] at this; simp at this; omega)
            (by rw [List.length_append, hfl, hr]; omega) (fun h => absurd h hterm) (by rw [List.length_append, hfl, hr]; omega), hfl, hr,
            show src + (o' - src) = o' by omega]
        rcases hspec with ⟨f, rest, e, hf, ht, hr⟩ | ⟨_, ⟨e, hr⟩ | ⟨hterm, s, o, hr⟩⟩
        · rw [hr, ok_bind]
          have el := congrArg List.length e
          rw [hwl, List.length_append] at el
          have hfe : f = (mem.drop src).take (src + f.length - src) := by
            have := congrArg (List.take f.length) e
            rw [List.take_take, List.take_left, Nat.min_eq_left (by omega)] at this
            rw [show src + f.length - src = f.length by omega]
            exact this.symm
          have ih := pFields_leaves hm h64 ts (src + f.length) rest.length (out ++ f) hT.2 (by omega) (by omega)
          rw [show src + f.length + rest.length = src + b by omega] at ih
          rw [ih]
          constructor
          · intro h
            exact .afterField (o' := src + f.length) (by omega) (by omega) (by omega) (by rw [← hfe]; exact hf) (fun hterm => by
              have := hT.1 hterm; subst this; cases h) h
          · intro h
            cases h with
            | name _ h => exact absurd h hN
            | svc => exact absurd rfl hsv
            | afterName _ h => exact absurd h hN
            | @afterField _ _ _ o' _ h1 h2 h3 h4 h5 =>
              have := hback h1 h2 h3 h4
              rw [hr] at this
              simp only [ok.injEq, PState.mk.injEq] at this
              rw [this.1]; exact h5
        · rw [hr, err_bind]
          refine ⟨by simp, fun h => ?_⟩
          cases h with
          | name _ h => exact absurd h hN
          | svc => exact absurd rfl hsv
          | afterName _ h => exact absurd h hN
          | @afterField _ _ _ o' _ h1 h2 h3 h4 h5 =>
            have := hback h1 h2 h3 h4
            rw [hr] at this
            cases this
        · rw [hr, ok_bind, hT.1 hterm, pFields]
          refine ⟨by simp, fun h => ?_⟩
          cases h with
          | name _ h => exact absurd h hN
          | svc => exact absurd rfl hsv
          | afterName _ h => exact absurd h hN
          | @afterField _ _ _ o' _ h1 h2 h3 h4 h5 => exact absurd hterm h4

theorem parseRdata_leaves {mem : List UInt8} {eop o rdlen ty cls : Nat} (hm : eop ≤ mem.length) (h64 : eop < 2 ^ 64) (hfit : o + rdlen ≤ eop) (hl : rdlen < 65536) :
    parseRdata mem 0 eop o rdlen ty cls = ub ↔ RdataLeaves mem eop o rdlen ty cls := by
  by_cases hop : Opaque ty cls
  · have hwl := take_drop_length mem o rdlen (by omega)
    have := parseRdata_opaque (p := 0) (eop := eop) hop (Win.mk' (mem := mem) (o := o) (n := rdlen) (by omega)) (by rw [hwl]; exact hl)
    rw [hwl] at this
    rw [this]
    refine ⟨by simp, ?_⟩
    rintro ⟨d, hd, ha, -⟩
    rw [hop d hd] at ha; cases ha
  · unfold Opaque at hop
    simp only [not_forall, Bool.not_eq_false] at hop
    obtain ⟨d, hd, ha⟩ := hop
    rw [parseRdata_known hd ha]
    have := pFields_leaves hm h64 d.types o rdlen [] (descr_facts hd).1 hfit hl
    have hf : ∀ x : Outcome PState, (x >>= fun st => if st.bytes ≠ 0 then err .outOfBounds else ok (⟨st.out.length % 65536, st.out⟩ : CRdata)) = ub ↔ x = ub := by
      intro x; exact fin_ub
    rw [hf, this]
    constructor
    · intro h; exact ⟨d, hd, ha, h⟩
    · rintro ⟨d', hd', _, h⟩
      rw [hd] at hd'; cases hd'
      exact h

theorem rrMem_bounds {mem : List UInt8} {len sec o o' : Nat} {rr : RR} (h : RRMem mem len sec o o' rr) : o < o' ∧ o' ≤ len := by
  cases h with
  | question _ _ h3 h4 => have := encEnd_lt h3; omega
  | record _ _ _ h3 h4 _ => have := encEnd_lt h3; omega

theorem parseMessageRr_mem_iff {sec : Nat} {mem : List UInt8} {eop o sz : Nat} {rr : RR} (hm : eop ≤ mem.length) (h64 : eop < 2 ^ 64) :
    parseMessageRr sec mem 0 eop o = ok (rr, sz) ↔ RRMem mem eop sec o (o + sz) rr := by
  constructor
  · intro h
    have h' := h
    unfold parseMessageRr at h'
    obtain ⟨⟨nm, len⟩, hu, h'⟩ := bind_eq_ok.mp h'
    obtain ⟨⟨s, k⟩, hs, -⟩ := bind_eq_ok.mp h'
    obtain ⟨_, h2, n, e, hd, hwf, rfl, rfl, he1, he2, he3, he4⟩ := unpack_skip h64 hu hs
    have hlt := encEnd_lt he1
    rw [parseMessageRr_eq hu hs hm] at h
    split at h
    · simp at h
    rename_i hb
    have hse : s = e := by omega
    subst hse
    rw [List.take_length] at h
    split at h
    · rename_i h0
      simp only [ok.injEq, Prod.mk.injEq] at h
      obtain ⟨rfl, rfl⟩ := h
      subst h0
      rw [show o + (s + 4 - o) = s + 4 by omega]
      exact .question hd hwf he1 (by omega)
    · rename_i h0
      split at h
      · simp at h
      · obtain ⟨r, hr, h⟩ := bind_eq_ok.mp h
        simp only [ok.injEq, Prod.mk.injEq] at h
        obtain ⟨rfl, rfl⟩ := h
        obtain ⟨x, hx, rfl⟩ := (parseRdata_mem_iff hm h64 (by omega) (u16At_lt _ _)).mp hr
        rw [show o + (s + 10 - o + u16At mem (s + 8)) = s + 10 + u16At mem (s + 8) by omega]
        exact .record h0 hd hwf he1 (by omega) hx
  · intro h
    generalize ho' : o + sz = o' at h
    cases h with
    | @question o e n h1 h2 h3 h4 =>
      have hlt := encEnd_lt h3
      obtain ⟨hu, -, hs⟩ := name_read hm h64 (Nat.zero_le _) (by omega) h1 h2 h3
      rw [Nat.min_eq_left (by omega)] at hs
      rw [parseMessageRr_eq hu hs hm, if_neg (by omega), if_pos rfl, List.take_length, show e + 4 - o = sz by omega]
    | @record sec o e n x h0 h1 h2 h3 h4 h5 =>
      have hlt := encEnd_lt h3
      obtain ⟨hu, -, hs⟩ := name_read hm h64 (Nat.zero_le _) (by omega) h1 h2 h3
      rw [Nat.min_eq_left (by omega)] at hs
      have hr := (parseRdata_mem_iff hm h64 (by omega) (u16At_lt _ _)).mpr ⟨x, h5, rfl⟩
      rw [parseMessageRr_eq hu hs hm, if_neg (by omega), if_neg h0, if_neg (by omega), hr, ok_bind, List.take_length,
        show e + 10 - o + u16At mem (e + 8) = sz by omega]

/-- Not a result, and handed on. -/
structure Stops (x : ∀ {α : Type}, Outcome α) : Prop where
  ok : ∀ {α : Type} {a : α}, x ≠ ok a
  map : ∀ {α β : Type} (y : Outcome α) (f : α → β), (y >>= fun a => Outcome.ok (f a)) = x ↔ y = x
  bind : ∀ {α β : Type} (y : Outcome α) (f : α → Outcome β), (y >>= f) = x ↔ y = x ∨ ∃ a, y = Outcome.ok a ∧ f a = x

theorem stops_err (r : Res) : Stops (err r) where
  ok := by simp
  map y f := by cases y <;> simp
  bind y f := by cases y <;> simp

/-- Neither a result nor an error. -/
structure Bad (x : ∀ {α : Type}, Outcome α) : Prop extends Stops x where
  err : ∀ {α : Type} {r : Res}, (x : Outcome α) ≠ err r

theorem bad_hang : Bad hang where
  err := by simp
  ok := by simp
  map y f := by cases y <;> simp
  bind y f := by cases y <;> simp

theorem bad_ub : Bad ub where
  err := by simp
  ok := by simp
  map y f := by cases y <;> simp
  bind y f := by cases y <;> simp

/-- A record whose rdata does something bad. -/
theorem parseMessageRr_mem_bad {sec : Nat} {mem : List UInt8} {eop o : Nat} (hm : eop ≤ mem.length) (h64 : eop < 2 ^ 64)
    {x : ∀ {α : Type}, Outcome α} {P : Nat → Nat → Nat → Nat → Prop} (hx : Bad x)
    (hP : ∀ i n ty cls, i + n ≤ eop → n < 65536 → (parseRdata mem 0 eop i n ty cls = x ↔ P i n ty cls)) :
    parseMessageRr sec mem 0 eop o = x ↔ unpackName maxlenName mem 0 eop o = x ∨ sec ≠ 0 ∧ WithRdata mem eop o P := by
  by_cases hN : o < eop ∧ ∃ n, Denotes (mem.take (eop + 1)) 0 o n ∧ WF n
  · obtain ⟨ho, n, hd, hwf⟩ := hN
    obtain ⟨e, he, _⟩ := encEnd_of_denotes hd
    obtain ⟨hun, hle, hs⟩ := name_read hm h64 (Nat.zero_le _) ho hd hwf he
    have hlt := encEnd_lt he
    rw [or_iff_right (a := unpackName maxlenName mem 0 eop o = x) (fun h => absurd (h.symm.trans hun) hx.ok), parseMessageRr_eq hun hs hm]
    split
    · rename_i hbad
      refine ⟨fun h => absurd h.symm hx.err, ?_⟩
      rintro ⟨h0, n', e', hd', hwf', he', hle', _⟩
      have := encEnd_functional he he'
      omega
    · rename_i hgood
      rw [Nat.min_eq_left (by omega)]
      rw [Nat.min_eq_left (by omega)] at hgood
      split
      · rename_i h0
        exact ⟨fun h => absurd h.symm hx.ok, fun h => absurd h0 h.1⟩
      · rename_i h0
        split
        · rename_i hov
          refine ⟨fun h => absurd h.symm hx.err, ?_⟩
          rintro ⟨h0, n', e', hd', hwf', he', hle', _⟩
          have := encEnd_functional he he'
          subst this
          omega
        · rename_i hov
          rw [hx.map (parseRdata mem 0 eop _ _ _ _) _, hP _ _ _ _ (by omega) (u16At_lt _ _)]
          constructor
          · intro h; exact ⟨h0, n, e, hd, hwf, he, by omega, h⟩
          · rintro ⟨_, n', e', hd', hwf', he', hle', h⟩
            have := encEnd_functional he he'
            subst this
            exact h
  · have hno : ∀ a, unpackName maxlenName mem 0 eop o ≠ ok a := by
      rintro ⟨nm, l⟩ hu
      have ho : o < eop := by
        unfold unpackName at hu
        split at hu
        · simp at hu
        · omega
      obtain ⟨n, hd, hwf, _⟩ := (C02_unpack_exact_overread maxlenName mem 0 eop o _ _ (by decide) (Nat.zero_le _) ho).mp hu
      exact hN ⟨ho, n, hd, hwf⟩
    constructor
    · intro h
      unfold parseMessageRr at h
      rcases (hx.bind _ _).mp h with h | ⟨a, h, _⟩
      · exact .inl h
      · exact absurd h (hno a)
    · rintro (h | ⟨_, n, e, hd, hwf, he, hle, _⟩)
      · unfold parseMessageRr
        exact (hx.bind _ _).mpr (.inl h)
      have := encEnd_lt he
      exact absurd ⟨by omega, n, hd, hwf⟩ hN

theorem readSec_mem_iff {sec : Nat} {mem : List UInt8} {len : Nat} (hm : len ≤ mem.length) (h64 : len < 2 ^ 64) : ∀ {n o rrs o'}, o ≤ len →
    (readSec sec mem len n o = ok (rrs, o') ↔ RecsMem mem len sec n o rrs o') := by
  intro n
  induction n with
  | zero =>
    intro o rrs o' ho
    simp only [readSec, ok.injEq, Prod.mk.injEq]
    constructor
    · rintro ⟨rfl, rfl⟩; exact .zero
    · intro h; cases h; exact ⟨rfl, rfl⟩
  | succ n ih =>
    intro o rrs o' ho
    by_cases hl : o = len
    · subst hl
      have hr : readSec sec mem o (n + 1) o = ok ([], o) := by simp [readSec]
      rw [hr, ok.injEq, Prod.mk.injEq]
      constructor
      · rintro ⟨rfl, rfl⟩; exact .stop
      · intro h
        cases h with
        | stop => exact ⟨rfl, rfl⟩
        | cons h1 _ _ => omega
    · simp only [readSec]
      rw [if_neg hl]
      constructor
      · intro h
        obtain ⟨⟨rr, sz⟩, h1, h⟩ := bind_eq_ok.mp h
        obtain ⟨⟨rrs', p1⟩, h2, h⟩ := bind_eq_ok.mp h
        simp only [ok.injEq, Prod.mk.injEq] at h
        obtain ⟨rfl, rfl⟩ := h
        have hr := (parseMessageRr_mem_iff hm h64).mp h1
        exact .cons (by omega) hr ((ih (rrMem_bounds hr).2).mp h2)
      · intro h
        cases h with
        | stop => exact absurd rfl hl
        | @cons _ _ o₁ _ rr rrs h1 h2 h3 =>
          have hb := rrMem_bounds h2
          have hp : parseMessageRr sec mem 0 len o = ok (rr, o₁ - o) :=
            (parseMessageRr_mem_iff hm h64).mpr (by rw [show o + (o₁ - o) = o₁ by omega]; exact h2)
          rw [hp]
          simp only [ok_bind]
          rw [show o + (o₁ - o) = o₁ by omega, (ih hb.2).mpr h3]
          rfl

theorem recsMem_le {mem : List UInt8} {len sec n o o' : Nat} {rrs : List RR} (h : RecsMem mem len sec n o rrs o') : o ≤ len → o' ≤ len := by
  induction h with
  | zero => exact id
  | stop => exact id
  | cons _ h2 _ ih => intro _; exact ih (rrMem_bounds h2).2

section
variable {mem : List UInt8} {len : Nat} (hm : len ≤ mem.length) (h64 : len < 2 ^ 64) {x : ∀ {α : Type}, Outcome α} (hx : Stops x)
include hm h64 hx

theorem readSec_mem_bad {sec : Nat} : ∀ {n o}, o ≤ len →
    (readSec sec mem len n o = x ↔ ∃ k rrs o', k < n ∧ RecsMem mem len sec k o rrs o' ∧ o' < len ∧ parseMessageRr sec mem 0 len o' = x) := by
  intro n
  induction n with
  | zero =>
    intro o ho
    rw [readSec]
    exact ⟨fun h => absurd h.symm hx.ok, fun ⟨k, _, _, h, _⟩ => by omega⟩
  | succ n ih =>
    intro o ho
    by_cases hl : o = len
    · subst hl
      have hr : readSec sec mem o (n + 1) o = ok ([], o) := by simp [readSec]
      rw [hr]
      refine ⟨fun h => absurd h.symm hx.ok, ?_⟩
      rintro ⟨k, rrs, o', hk, hrec, hlt, _⟩
      cases hrec with
      | zero => omega
      | stop => omega
      | cons h1 _ _ => omega
    · simp only [readSec]
      rw [if_neg hl, hx.bind]
      constructor
      · rintro (h | ⟨⟨rr, sz⟩, h1, h⟩)
        · exact ⟨0, [], o, by omega, .zero, by omega, h⟩
        · simp only at h
          rw [hx.map (readSec sec mem len n (o + sz)) (fun a => (rr :: a.1, a.2))] at h
          have hr := (parseMessageRr_mem_iff hm h64).mp h1
          obtain ⟨k, rrs, o', hk, hrec, hlt, hbad⟩ := (ih (rrMem_bounds hr).2).mp h
          exact ⟨k + 1, rr :: rrs, o', by omega, .cons (by omega) hr hrec, hlt, hbad⟩
      · rintro ⟨k, rrs, o', hk, hrec, hlt, hbad⟩
        cases hrec with
        | zero => exact .inl hbad
        | stop => exact absurd rfl hl
        | @cons k _ o₁ _ rr rrs h1 h2 h3 =>
          have hb := rrMem_bounds h2
          have hp : parseMessageRr sec mem 0 len o = ok (rr, o₁ - o) :=
            (parseMessageRr_mem_iff hm h64).mpr (by rw [show o + (o₁ - o) = o₁ by omega]; exact h2)
          refine .inr ⟨(rr, o₁ - o), hp, ?_⟩
          simp only
          rw [hx.map (readSec sec mem len n (o + (o₁ - o))) (fun a => (rr :: a.1, a.2)), show o + (o₁ - o) = o₁ by omega]
          exact (ih hb.2).mpr ⟨k, rrs, o', by omega, h3, hlt, hbad⟩

theorem readAll_bad_cons {sec c p : Nat} {rest : List (Nat × Nat)} (hp : p ≤ len) : readAll mem len ((sec, c) :: rest) p = x ↔
    (∃ k rrs o', k < c ∧ RecsMem mem len sec k p rrs o' ∧ o' < len ∧ parseMessageRr sec mem 0 len o' = x) ∨
    ∃ rrs p', RecsMem mem len sec c p rrs p' ∧ p' ≤ len ∧ readAll mem len rest p' = x := by
  rw [readAll, hx.bind, readSec_mem_bad hm h64 hx hp]
  refine or_congr Iff.rfl ⟨?_, ?_⟩
  · rintro ⟨⟨rrs, p'⟩, h1, h2⟩
    have h1 := (readSec_mem_iff hm h64 hp).mp h1
    simp only at h2
    rw [hx.map (readAll mem len rest p') (fun a => rrs.map (sec, ·) ++ a)] at h2
    exact ⟨rrs, p', h1, recsMem_le h1 hp, h2⟩
  · rintro ⟨rrs, p', h1, _, h2⟩
    refine ⟨(rrs, p'), (readSec_mem_iff hm h64 hp).mpr h1, ?_⟩
    simp only
    rw [hx.map (readAll mem len rest p') (fun a => rrs.map (sec, ·) ++ a)]
    exact h2

theorem readAll_mem_bad (h12 : 12 ≤ len) : readAll mem len (headerSecs mem) 12 = x ↔
    ∃ sec o, RecordAt mem len sec o ∧ parseMessageRr sec mem 0 len o = x := by
  unfold headerSecs
  constructor
  · intro h
    rcases (readAll_bad_cons hm h64 hx h12).mp h with ⟨k, rrs, o', hk, hr, hlt, hbad⟩ | ⟨r0, p1, h0, l1, h⟩
    · exact ⟨0, o', ⟨by omega, hlt, _, _, k, rrs, .first, hk, hr⟩, hbad⟩
    have s1 := SecStart.first.next h0
    rcases (readAll_bad_cons hm h64 hx l1).mp h with ⟨k, rrs, o', hk, hr, hlt, hbad⟩ | ⟨r1, p2, h1, l2, h⟩
    · exact ⟨1, o', ⟨by omega, hlt, _, _, k, rrs, s1, hk, hr⟩, hbad⟩
    have s2 := s1.next h1
    rcases (readAll_bad_cons hm h64 hx l2).mp h with ⟨k, rrs, o', hk, hr, hlt, hbad⟩ | ⟨r2, p3, h2, l3, h⟩
    · exact ⟨2, o', ⟨by omega, hlt, _, _, k, rrs, s2, hk, hr⟩, hbad⟩
    have s3 := s2.next h2
    rcases (readAll_bad_cons hm h64 hx l3).mp h with ⟨k, rrs, o', hk, hr, hlt, hbad⟩ | ⟨r3, p4, h3, l4, h⟩
    · exact ⟨3, o', ⟨by omega, hlt, _, _, k, rrs, s3, hk, hr⟩, hbad⟩
    · rw [readAll] at h
      exact absurd h.symm hx.ok
  · rintro ⟨sec, o, ⟨h4, hlt, p, all, k, rrs, hs, hk, hr⟩, hbad⟩
    have hsec : sec = 0 ∨ sec = 1 ∨ sec = 2 ∨ sec = 3 := by omega
    rcases hsec with rfl | rfl | rfl | rfl
    · cases hs
      exact (readAll_bad_cons hm h64 hx h12).mpr (.inl ⟨k, rrs, o, hk, hr, hlt, hbad⟩)
    · obtain _ | ⟨hs, h0⟩ := hs
      cases hs
      have l1 := recsMem_le h0 h12
      exact (readAll_bad_cons hm h64 hx h12).mpr (.inr ⟨_, _, h0, l1,
        (readAll_bad_cons hm h64 hx l1).mpr (.inl ⟨k, rrs, o, hk, hr, hlt, hbad⟩)⟩)
    · obtain _ | ⟨hs, h1⟩ := hs
      obtain _ | ⟨hs, h0⟩ := hs
      cases hs
      have l1 := recsMem_le h0 h12
      have l2 := recsMem_le h1 l1
      exact (readAll_bad_cons hm h64 hx h12).mpr (.inr ⟨_, _, h0, l1,
        (readAll_bad_cons hm h64 hx l1).mpr (.inr ⟨_, _, h1, l2,
        (readAll_bad_cons hm h64 hx l2).mpr (.inl ⟨k, rrs, o, hk, hr, hlt, hbad⟩)⟩)⟩)
    · obtain _ | ⟨hs, h2⟩ := hs
      obtain _ | ⟨hs, h1⟩ := hs
      obtain _ | ⟨hs, h0⟩ := hs
      cases hs
      have l1 := recsMem_le h0 h12
      have l2 := recsMem_le h1 l1
      have l3 := recsMem_le h2 l2
      exact (readAll_bad_cons hm h64 hx h12).mpr (.inr ⟨_, _, h0, l1,
        (readAll_bad_cons hm h64 hx l1).mpr (.inr ⟨_, _, h1, l2,
        (readAll_bad_cons hm h64 hx l2).mpr (.inr ⟨_, _, h2, l3,
        (readAll_bad_cons hm h64 hx l3).mpr (.inl ⟨k, rrs, o, hk, hr, hlt, hbad⟩)⟩)⟩)⟩)

end

/-- The records of any packet in any memory. -/
theorem readAll_mem_iff {mem : List UInt8} {len : Nat} (hm : len ≤ mem.length) (h64 : len < 2 ^ 64) (h12 : 12 ≤ len) {all} :
    readAll mem len (headerSecs mem) 12 = ok all ↔ ∃ o, SecStart mem len 4 o all := by
  constructor
  · intro h
    simp only [readAll, headerSecs] at h
    obtain ⟨⟨r0, p1⟩, h0, h⟩ := bind_eq_ok.mp h
    obtain ⟨m0, h, hm0⟩ := bind_eq_ok.mp h
    obtain ⟨⟨r1, p2⟩, h1, h⟩ := bind_eq_ok.mp h
    obtain ⟨m1, h, hm1⟩ := bind_eq_ok.mp h
    obtain ⟨⟨r2, p3⟩, h2, h⟩ := bind_eq_ok.mp h
    obtain ⟨m2, h, hm2⟩ := bind_eq_ok.mp h
    obtain ⟨⟨r3, p4⟩, h3, h⟩ := bind_eq_ok.mp h
    simp only [ok_bind, ok.injEq] at hm0 hm1 hm2 h
    have e0 := (readSec_mem_iff hm h64 h12).mp h0
    have b0 := recsMem_le e0 h12
    have e1 := (readSec_mem_iff hm h64 b0).mp h1
    have b1 := recsMem_le e1 b0
    have e2 := (readSec_mem_iff hm h64 b1).mp h2
    have b2 := recsMem_le e2 b1
    have e3 := (readSec_mem_iff hm h64 b2).mp h3
    refine ⟨p4, ?_⟩
    have := (((SecStart.first.next e0).next e1).next e2).next e3
    rw [← hm0, ← hm1, ← hm2, ← h]
    simpa [List.append_assoc] using this
  · rintro ⟨o, hs⟩
    obtain _ | ⟨hs, h3⟩ := hs
    obtain _ | ⟨hs, h2⟩ := hs
    obtain _ | ⟨hs, h1⟩ := hs
    obtain _ | ⟨hs, h0⟩ := hs
    cases hs
    have b0 := recsMem_le h0 h12
    have b1 := recsMem_le h1 b0
    have b2 := recsMem_le h2 b1
    have h0 := (readSec_mem_iff hm h64 h12).mpr h0
    have h1 := (readSec_mem_iff hm h64 b0).mpr h1
    have h2 := (readSec_mem_iff hm h64 b1).mpr h2
    have h3 := (readSec_mem_iff hm h64 b2).mpr h3
    simp only [Nat.mul_zero, Nat.add_zero, Nat.zero_add, Nat.mul_one, Nat.reduceMul, Nat.reduceAdd] at h0 h1 h2 h3
    simp only [readAll, headerSecs, h0, h1, h2, h3, ok_bind, List.append_nil, List.append_assoc, List.nil_append, Nat.zero_add]

end Wdns
