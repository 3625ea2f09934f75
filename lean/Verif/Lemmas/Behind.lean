import Verif.Lemmas.MessageSafe
import Verif.Spec.Behind

/-! Helper lemmas: parsing in terms of the packet and the one octet behind it. -/

namespace Wdns
open Outcome Spec

theorem name_read {mem : List UInt8} {p eop src : Nat} {n : Name} (hm : eop ≤ mem.length) (h64 : eop < 2 ^ 64) (hp : p ≤ src) (hs : src < eop)
    (hd : Denotes (mem.take (eop + 1)) p src n) (hn : WF n) {e : Nat} (he : EncEnd (mem.take (eop + 1)) src e) :
    unpackName maxlenName mem p eop src = ok (wire n, (wire n).length) ∧ e ≤ eop + 1 ∧ skipName mem src eop = ok (min e eop, min e eop - src) := by
  have hu := (C02_unpack_exact_overread maxlenName mem p eop src _ _ (by decide) hp hs).mpr ⟨n, hd, hn, rfl, rfl⟩
  obtain ⟨e', h1, h2⟩ := encEnd_of_denotes hd
  have := encEnd_functional he h1
  subst this
  simp only [List.length_take] at h2
  have hlt := encEnd_lt he
  refine ⟨hu, by omega, ?_⟩
  simp only [skipName, skipLoop_encEnd' he (eop + 2) (by omega), ok_bind, ok.injEq, Prod.mk.injEq]
  split <;> omega

theorem pFields_zero {mem : List UInt8} {p eop s : Nat} {out : List UInt8} (ts : List Rdf) : pFields mem p eop ts ⟨s, 0, out⟩ = ok ⟨s, 0, out⟩ := by
  cases ts with
  | nil => rfl
  | cons t ts => simp [pFields]

theorem slice_in {mem : List UInt8} {eop a b : Nat} (h : a + b ≤ eop + 1) : ((mem.take (eop + 1)).drop a).take b = (mem.drop a).take b :=
  slice_congr (fun j _ _ => getElem?_take_lt (by omega))

theorem pFields_in_complete {mem : List UInt8} {p eop e : Nat} (he : e ≤ eop) (hm : eop ≤ mem.length)
    (h64 : eop < 2 ^ 64) {ts o x} (h : Layout (mem.take (eop + 1)) p e ts o x) (hp : p ≤ o) (hl : e - o < 65536) : ∀ out,
    pFields mem p eop ts ⟨o, e - o, out⟩ = ok ⟨e, 0, out ++ x⟩ := by
  induction h with
  | @done ts => intro out; cases ts <;> simp [pFields]
  | @name t ts o o' n rest h1 h2 h3 h4 h5 h6 h7 ih =>
    intro out
    have hlt := encEnd_lt h5
    simp only [pFields]
    rw [if_neg (by omega), pField_name h2]
    obtain ⟨hu, -, hs⟩ := name_read hm h64 hp (by omega) h3 h4 h5
    rw [Nat.min_eq_left (by omega)] at hs
    simp only [hu, hs, ok_bind]
    rw [if_neg (by omega)]
    simp only [ok_bind]
    have := ih (by omega) (by omega) (out ++ wire n)
    rw [show e - o - (o' - o) = e - o' by omega]
    simp [this]
  | @field t ts o o' rest h1 h2 h3 h4 h5 h6 ih =>
    intro out
    simp only [pFields]
    rw [if_neg (by omega)]
    rw [slice_in (by omega)] at h4 ⊢
    have hf : ((mem.drop o).take (o' - o)).length = o' - o := take_drop_length _ _ _ (by omega)
    have hw : Win mem o ((mem.drop o).take (o' - o) ++ (mem.drop o').take (e - o')) := by
      have h := Win.mk' (mem := mem) (o := o) (n := e - o) (by omega)
      rw [show e - o = (o' - o) + (e - o') by omega, List.take_add, List.drop_drop,
        show o + (o' - o) = o' by omega] at h
      exact h
    have hr : ((mem.drop o').take (e - o')).length = e - o' := take_drop_length _ _ _ (by omega)
    rw [pField_complete h4 hw (by
        intro h; have := congrArg List.length h
        rw [List.length_append, hf, hr] at this; simp at this; omega)
      (by rw [List.length_append, hf, hr]; omega)
      (by intro h; rw [h5 h]; simp) (by rw [List.length_append, hf, hr]; omega)]
    simp only [ok_bind, hf, hr]
    rw [show o + (o' - o) = o' by omega, ih (by omega) (by omega)]
    simp

theorem borrows_lt {buf : List UInt8} {len : Nat} {ts o x} (h : Borrows buf len ts o x) : o < len := by
  induction h with
  | here h => exact h
  | name _ _ _ h5 h6 _ ih => have := encEnd_lt h5; omega
  | field h1 h2 _ _ _ ih => omega

theorem pFields_borrow_complete {mem : List UInt8} {eop : Nat} (hm : eop ≤ mem.length)
    (h64 : eop < 2 ^ 64) {ts o x} (h : Borrows (mem.take (eop + 1)) eop ts o x) (hl : eop - o < 65536) : ∀ out,
    pFields mem 0 eop ts ⟨o, eop - o, out⟩ = ok ⟨eop, 0, out ++ x⟩ := by
  induction h with
  | @here t ts o n h1 h2 h3 h4 h5 =>
    intro out
    simp only [pFields]
    rw [if_neg (by omega), pField_name h2]
    obtain ⟨hu, -, hs⟩ := name_read hm h64 (Nat.zero_le _) h1 h3 h4 h5
    rw [Nat.min_eq_right (by omega)] at hs
    simp only [hu, hs, ok_bind]
    rw [if_neg (by omega)]
    simp only [ok_bind]
    rw [show eop - o - (eop - o) = 0 by omega, pFields_zero]
    simp
  | @name t ts o o' n rest h2 h3 h4 h5 h6 h7 ih =>
    intro out
    have hlt := encEnd_lt h5
    have hb := borrows_lt h7
    simp only [pFields]
    rw [if_neg (by omega), pField_name h2]
    obtain ⟨hu, -, hs⟩ := name_read hm h64 (Nat.zero_le _) (by omega) h3 h4 h5
    rw [Nat.min_eq_left (by omega)] at hs
    simp only [hu, hs, ok_bind]
    rw [if_neg (by omega)]
    simp only [ok_bind]
    have := ih (by omega) (out ++ wire n)
    rw [show eop - o - (o' - o) = eop - o' by omega]
    simp [this]
  | @field t ts o o' rest h2 h3 h4 h5 h6 ih =>
    intro out
    have hb := borrows_lt h6
    simp only [pFields]
    rw [if_neg (by omega)]
    rw [slice_in (by omega)] at h4 ⊢
    have hf : ((mem.drop o).take (o' - o)).length = o' - o := take_drop_length _ _ _ (by omega)
    have hw : Win mem o ((mem.drop o).take (o' - o) ++ (mem.drop o').take (eop - o')) := by
      have h := Win.mk' (mem := mem) (o := o) (n := eop - o) (by omega)
      rw [show eop - o = (o' - o) + (eop - o') by omega, List.take_add, List.drop_drop,
        show o + (o' - o) = o' by omega] at h
      exact h
    have hr : ((mem.drop o').take (eop - o')).length = eop - o' := take_drop_length _ _ _ (by omega)
    rw [pField_complete h4 hw (by
        intro h; have := congrArg List.length h
        rw [List.length_append, hf, hr] at this; simp at this; omega)
      (by rw [List.length_append, hf, hr]; omega)
      (fun h => absurd h h5) (by rw [List.length_append, hf, hr]; omega)]
    simp only [ok_bind, hf, hr]
    rw [show o + (o' - o) = o' by omega, ih (by omega)]
    simp

theorem pFields_in_sound {mem : List UInt8} {eop : Nat} (hm : eop ≤ mem.length) (h64 : eop < 2 ^ 64) : ∀ {ts} {src b : Nat} {out : List UInt8}
    {s' : Nat} {out' : List UInt8}, TermLast ts → src + b ≤ eop → b < 65536 →
    ¬ LongIn (mem.take eop) (src + b) ts src →
    pFields mem 0 eop ts ⟨src, b, out⟩ = ok ⟨s', 0, out'⟩ →
    ∃ x, out' = out ++ x ∧ (Layout (mem.take (eop + 1)) 0 (src + b) ts src x ∨ src + b = eop ∧ Borrows (mem.take (eop + 1)) eop ts src x) := by
  intro ts
  induction ts with
  | nil =>
    intro src b out s' out' _ hl _ _ h
    simp only [pFields, ok.injEq, PState.mk.injEq] at h
    obtain ⟨rfl, rfl, rfl⟩ := h
    exact ⟨[], by simp, .inl .done⟩
  | cons t ts ih =>
    intro src b out s' out' hT hl hb hno h
    by_cases hb0 : b = 0
    · subst hb0
      rw [pFields_zero] at h
      simp only [ok.injEq, PState.mk.injEq] at h
      obtain ⟨rfl, _, rfl⟩ := h
      exact ⟨[], by simp, .inl .done⟩
    · simp only [pFields] at h
      rw [if_neg hb0] at h
      by_cases hN : IsName t
      · rw [pField_name hN] at h
        obtain ⟨st1, hst, hrest⟩ := bind_eq_ok.mp h
        obtain ⟨⟨nm, len⟩, hu, hst⟩ := bind_eq_ok.mp hst
        obtain ⟨⟨s, k⟩, hs, hst⟩ := bind_eq_ok.mp hst
        simp only at hst
        obtain ⟨_, h2, n, e', hd, hwf, rfl, rfl, he1, he2, he3, he4⟩ := unpack_skip h64 hu hs
        have hlt := encEnd_lt he1
        by_cases hk : b < k
        · rw [if_pos hk] at hst; simp at hst
        rw [if_neg hk, ok.injEq] at hst
        subst hst
        rw [List.take_length] at hrest
        by_cases hov : e' = eop + 1
        · have hbk : b - k = 0 := by omega
          rw [hbk, pFields_zero] at hrest
          simp only [ok.injEq, PState.mk.injEq] at hrest
          obtain ⟨rfl, _, rfl⟩ := hrest
          subst hov
          exact ⟨wire n, rfl, .inr ⟨by omega, .here h2 hN hd hwf he1⟩⟩
        · have hse : s = e' := by omega
          subst hse
          obtain ⟨x, hx1, hx2⟩ := ih hT.2 (by omega) (by omega) (by
            intro hm
            rw [show s + (b - k) = src + b by omega] at hm
            exact hno (.name hN (encEnd_shrink he1 (by omega)) (by omega) hm)) hrest
          refine ⟨wire n ++ x, by rw [hx1]; simp, ?_⟩
          rw [show s + (b - k) = src + b by omega] at hx2
          rcases hx2 with hx2 | ⟨he, hx2⟩
          · exact .inl (.name (by omega) hN hd hwf he1 (by omega) hx2)
          · exact .inr ⟨he, .name hN hd hwf he1 (by omega) hx2⟩
      · have hw := Win.mk' (mem := mem) (o := src) (n := b) (by omega)
        have hwl := take_drop_length mem src b (by omega)
        have hst : ((mem.take eop).drop src).take b = (mem.drop src).take b := slice_congr (fun j _ _ => getElem?_take_lt (by omega))
        have hst' : ((mem.take (eop + 1)).drop src).take b = (mem.drop src).take b := slice_congr (fun j _ _ => getElem?_take_lt (by omega))
        have hspec := pField_spec (p := 0) (eop := eop) (out := out) hN hw
          (by intro h; rw [h] at hwl; simp at hwl; omega) (by rw [hwl]; exact hb)
          (by rintro rfl hL; exact hno (.here (by rw [show src + b - src = b by omega, hst]; exact hL)))
        rw [hwl] at hspec
        rcases hspec with ⟨f, rest, e, hf, ht, hr⟩ | ⟨_, ⟨e, hr⟩ | ⟨hterm, s, o, hr⟩⟩
        · rw [hr, ok_bind] at h
          have el := congrArg List.length e
          rw [hwl, List.length_append] at el
          have hcut : ∀ m : List UInt8, (m.drop src).take b = (mem.drop src).take b → f = (m.drop src).take (src + f.length - src) := by
            intro m hm
            rw [← hm] at e
            have := congrArg (List.take f.length) e
            rw [List.take_take, List.take_left, Nat.min_eq_left (by omega)] at this
            rw [show src + f.length - src = f.length by omega]
            exact this.symm
          have hfe := hcut _ hst
          have hfe' := hcut _ hst'
          obtain ⟨x, hx1, hx2⟩ := ih hT.2 (by omega) (by omega) (by
            intro hm
            rw [show src + f.length + rest.length = src + b by omega] at hm
            exact hno (.field hN (o' := src + f.length) (by omega) (by omega) (by rw [← hfe]; exact hf) hm)) h
          rw [show src + f.length + rest.length = src + b by omega] at hx2
          refine ⟨f ++ x, by rw [hx1]; simp, ?_⟩
          rcases hx2 with hx2 | ⟨he, hx2⟩
          · left
            have := Layout.field (t := t) (o := src) (o' := src + f.length) (by omega) (by omega) (layout_le hx2)
              (by rw [← hfe']; exact hf) (by
                intro hterm
                have h0 := ht hterm
                subst h0
                simp only [List.length_nil] at el
                omega) hx2
            rw [← hfe'] at this
            exact this
          · right
            refine ⟨he, ?_⟩
            have := Borrows.field (t := t) (o := src) (o' := src + f.length) (by omega) (by omega)
              (by rw [← hfe']; exact hf) (by
                intro hterm
                have h0 := hT.1 hterm
                subst h0
                cases hx2) hx2
            rw [← hfe'] at this
            exact this
        · rw [hr] at h; simp at h
        · rw [hr, ok_bind, hT.1 hterm] at h
          simp [pFields] at h

/-- Parsing of an rdata, in terms of the packet and the octet behind it. -/
theorem parseRdata_in_iff {mem : List UInt8} {eop o rdlen ty cls : Nat} {r : CRdata} (hm : eop ≤ mem.length) (h64 : eop < 2 ^ 64) (hfit : o + rdlen ≤ eop)
    (hl : rdlen < 65536) (hsvc : ty = 64 ∨ ty = 65 → cls = 1 → ¬ LongSvc (mem.take eop) o rdlen) :
    parseRdata mem 0 eop o rdlen ty cls = ok r ↔ ∃ x, RdataIn (mem.take (eop + 1)) eop o rdlen ty cls x ∧ r = ⟨x.length % 65536, x⟩ := by
  by_cases hop : Opaque ty cls
  · have hwl := take_drop_length mem o rdlen (by omega)
    have := parseRdata_opaque (p := 0) (eop := eop) hop (Win.mk' (mem := mem) (o := o) (n := rdlen) (by omega)) (by rw [hwl]; exact hl)
    rw [hwl] at this
    rw [this, ok.injEq]
    constructor
    · rintro rfl
      exact ⟨_, .inr ⟨hop, rfl⟩, by rw [slice_in (by omega), hwl, Nat.mod_eq_of_lt hl]⟩
    · rintro ⟨x, ⟨d, hd, ha, -⟩ | ⟨-, rfl⟩, rfl⟩
      · rw [hop d hd] at ha; cases ha
      · rw [slice_in (by omega), hwl, Nat.mod_eq_of_lt hl]
  · have hop' := hop
    unfold Opaque at hop
    simp only [not_forall, Bool.not_eq_false] at hop
    obtain ⟨d, hd, ha⟩ := hop
    have hf := descr_facts hd
    rw [parseRdata_known hd ha]
    constructor
    · intro h
      obtain ⟨⟨s, b, x⟩, h1, h2⟩ := bind_eq_ok.mp h
      simp only at h2
      split at h2
      · simp at h2
      · rename_i hb
        simp only [ne_eq, Decidable.not_not] at hb
        subst hb
        obtain ⟨y, hy1, hy2⟩ := pFields_in_sound hm h64 hf.1 hfit hl (no_longIn hd ha hsvc) h1
        simp only [List.nil_append] at hy1
        subst hy1
        simp only [ok.injEq] at h2
        exact ⟨_, .inl ⟨d, hd, ha, hy2⟩, h2.symm⟩
    · rintro ⟨x, ⟨d', hd', ha', hx⟩ | ⟨h, -⟩, rfl⟩
      · rw [hd] at hd'
        cases hd'
        rcases hx with hx | ⟨he, hx⟩
        · have := pFields_in_complete hfit hm h64 hx (Nat.zero_le _) (by omega) []
          rw [show o + rdlen - o = rdlen by omega] at this
          simp [this]
        · have := pFields_borrow_complete hm h64 hx (by omega) []
          rw [show eop - o = rdlen by omega] at this
          simp [this]
      · exact absurd h hop'

theorem u16At_in {mem : List UInt8} {eop i : Nat} (h : i + 2 ≤ eop + 1) : u16At (mem.take (eop + 1)) i = u16At mem i := u16At_take (by omega)

theorem rrIn_bounds {buf : List UInt8} {len sec o o' : Nat} {rr : RR} (h : RRIn buf len sec o o' rr) : o < o' ∧ o' ≤ len := by
  cases h with
  | question _ _ h3 h4 => have := encEnd_lt h3; omega
  | record _ _ _ h3 h4 _ => have := encEnd_lt h3; omega

theorem parseMessageRr_in_iff {sec : Nat} {mem : List UInt8} {eop o sz : Nat} {rr : RR} (hm : eop ≤ mem.length) (h64 : eop < 2 ^ 64)
    (hno : sec ≠ 0 → RecNoLong (mem.take eop) o) :
    parseMessageRr sec mem 0 eop o = ok (rr, sz) ↔ RRIn (mem.take (eop + 1)) eop sec o (o + sz) rr := by
  constructor
  · intro h
    have h' := h
    unfold parseMessageRr at h'
    obtain ⟨⟨nm, len⟩, hu, h'⟩ := bind_eq_ok.mp h'
    obtain ⟨⟨s, k⟩, hs, -⟩ := bind_eq_ok.mp h'
    obtain ⟨_, h2, n, e, hd, hwf, rfl, rfl, he1, he2, he3, he4⟩ := unpack_skip h64 hu hs
    have hlt := encEnd_lt he1
    rw [parseMessageRr_eq hu hs hm] at h
    split at h
    · simp at h
    rename_i hb
    have hse : s = e := by omega
    subst hse
    rw [List.take_length] at h
    split at h
    · rename_i h0
      simp only [ok.injEq, Prod.mk.injEq] at h
      obtain ⟨rfl, rfl⟩ := h
      subst h0
      rw [show o + (s + 4 - o) = s + 4 by omega]
      have := RRIn.question (len := eop) hd hwf he1 (by omega)
      rwa [u16At_in (by omega), u16At_in (by omega)] at this
    · rename_i h0
      split at h
      · simp at h
      · obtain ⟨r, hr, h⟩ := bind_eq_ok.mp h
        simp only [ok.injEq, Prod.mk.injEq] at h
        obtain ⟨rfl, rfl⟩ := h
        have hn := fun hs hc => hno h0 s (encEnd_shrink he1 (by omega)) hs hc
        rw [u16At_take (by omega), u16At_take (by omega), u16At_take (by omega)] at hn
        obtain ⟨x, hx, rfl⟩ := (parseRdata_in_iff hm h64 (by omega) (u16At_lt _ _) hn).mp hr
        rw [show o + (s + 10 - o + u16At mem (s + 8)) = s + 10 + u16At mem (s + 8) by omega]
        have := RRIn.record (len := eop) h0 hd hwf he1 (x := x) (by rw [u16At_in (by omega)]; omega)
          (by rw [u16At_in (by omega), u16At_in (by omega), u16At_in (by omega)]; exact hx)
        rw [u16At_in (by omega), u16At_in (by omega), u16At_in (by omega)] at this
        rwa [show u32At (mem.take (eop + 1)) (s + 4) = u32At mem (s + 4) by
          simp only [u32At]; rw [getD_take (by omega), getD_take (by omega), getD_take (by omega), getD_take (by omega)]] at this
  · intro h
    generalize ho' : o + sz = o' at h
    cases h with
    | @question o e n h1 h2 h3 h4 =>
      have hlt := encEnd_lt h3
      obtain ⟨hu, -, hs⟩ := name_read hm h64 (Nat.zero_le _) (by omega) h1 h2 h3
      rw [Nat.min_eq_left (by omega)] at hs
      rw [parseMessageRr_eq hu hs hm, if_neg (by omega), if_pos rfl, u16At_in (by omega), u16At_in (by omega), List.take_length,
        show e + 4 - o = sz by omega]
    | @record sec o e n x h0 h1 h2 h3 h4 h5 =>
      have hlt := encEnd_lt h3
      obtain ⟨hu, -, hs⟩ := name_read hm h64 (Nat.zero_le _) (by omega) h1 h2 h3
      rw [Nat.min_eq_left (by omega)] at hs
      have hn := fun hs hc => hno h0 e (encEnd_shrink h3 (by omega)) hs hc
      rw [u16At_take (by omega), u16At_take (by omega), u16At_take (by omega)] at hn
      rw [u16At_in (by omega), u16At_in (by omega), u16At_in (by omega)] at h5
      rw [u16At_in (by omega)] at h4 ho'
      have hr := (parseRdata_in_iff hm h64 (by omega) (u16At_lt _ _) hn).mpr ⟨x, h5, rfl⟩
      rw [parseMessageRr_eq hu hs hm, if_neg (by omega), if_neg h0, if_neg (by omega), hr, ok_bind, u16At_in (by omega), u16At_in (by omega), List.take_length,
        show e + 10 - o + u16At mem (e + 8) = sz by omega]
      rw [show u32At (mem.take (eop + 1)) (e + 4) = u32At mem (e + 4) by
          simp only [u32At]; rw [getD_take (by omega), getD_take (by omega), getD_take (by omega), getD_take (by omega)]]

theorem readSec_in_iff {sec : Nat} {mem : List UInt8} {len : Nat} (hm : len ≤ mem.length) (h64 : len < 2 ^ 64) : ∀ {n o rrs o'}, o ≤ len →
    (∀ j < n, ∀ o', Walk (mem.take len) (sec = 0) j o o' → sec ≠ 0 → RecNoLong (mem.take len) o') →
    (readSec sec mem len n o = ok (rrs, o') ↔ RecsIn (mem.take (len + 1)) len sec n o rrs o') ∧ (readSec sec mem len n o = ok (rrs, o') → o' ≤ len) := by
  intro n
  induction n with
  | zero =>
    intro o rrs o' ho _
    refine ⟨⟨fun h => ?_, fun h => ?_⟩, fun h => ?_⟩
    · simp only [readSec, ok.injEq, Prod.mk.injEq] at h
      obtain ⟨rfl, rfl⟩ := h
      exact .zero
    · cases h; rfl
    · simp only [readSec, ok.injEq, Prod.mk.injEq] at h; omega
  | succ n ih =>
    intro o rrs o' ho hno
    have h0 := fun h0 => hno 0 (by omega) o .zero h0
    by_cases hl : o = len
    · subst hl
      have hr : readSec sec mem o (n + 1) o = ok ([], o) := by simp [readSec]
      rw [hr]
      refine ⟨⟨fun h => ?_, fun h => ?_⟩, fun h => ?_⟩
      · simp only [ok.injEq, Prod.mk.injEq] at h
        obtain ⟨rfl, rfl⟩ := h
        exact .stop
      · cases h with
        | stop => rfl
        | cons h1 _ _ => omega
      · simp only [ok.injEq, Prod.mk.injEq] at h; omega
    · have fwd : readSec sec mem len (n + 1) o = ok (rrs, o') → RecsIn (mem.take (len + 1)) len sec (n + 1) o rrs o' ∧ o' ≤ len := by
        intro h
        simp only [readSec] at h
        rw [if_neg (by omega)] at h
        obtain ⟨⟨rr, sz⟩, h1, h⟩ := bind_eq_ok.mp h
        obtain ⟨⟨rrs', p1⟩, h2, h⟩ := bind_eq_ok.mp h
        simp only [ok.injEq, Prod.mk.injEq] at h
        obtain ⟨rfl, rfl⟩ := h
        have hr := (parseMessageRr_in_iff hm h64 h0).mp h1
        obtain ⟨e, he, _, _, _, hst⟩ := parseMessageRr_step hm h64 h1
        obtain ⟨h3, h4⟩ := ih (o := o + sz) (rrs := rrs') (o' := p1) (rrIn_bounds hr).2 (fun j hj o' hw => hno (j + 1) (by omega) o' (.succ he (by
          simp only [decide_eq_true_eq]; rw [← hst]; exact hw)))
        exact ⟨.cons (by omega) hr (h3.mp h2), h4 h2⟩
      refine ⟨⟨fun h => (fwd h).1, fun h => ?_⟩, fun h => (fwd h).2⟩
      cases h with
      | stop => exact absurd rfl hl
      | @cons _ _ o₁ _ rr rrs h1 h2 h3 =>
        have hb := rrIn_bounds h2
        have hp : parseMessageRr sec mem 0 len o = ok (rr, o₁ - o) :=
          (parseMessageRr_in_iff hm h64 h0).mpr (by rw [show o + (o₁ - o) = o₁ by omega]; exact h2)
        obtain ⟨e, he, _, _, _, hst⟩ := parseMessageRr_step hm h64 hp
        rw [show o + (o₁ - o) = o₁ by omega] at hst
        have := (ih (o := o₁) (rrs := rrs) (o' := o') hb.2 (fun j hj o' hw => hno (j + 1) (by omega) o' (.succ he (by
          simp only [decide_eq_true_eq]; rw [← hst]; exact hw)))).1.mpr h3
        simp only [readSec]
        rw [if_neg (by omega), hp]
        simp only [ok_bind]
        rw [show o + (o₁ - o) = o₁ by omega, this]
        rfl

/-- The decoder's records are those of the packet, completed by at most one octet behind it. -/
theorem readAll_in_iff {mem : List UInt8} {len : Nat} (hm : len ≤ mem.length) (h64 : len < 2 ^ 64) (h12 : 12 ≤ len) (hno : SvcNoLong (mem.take len)) {all} :
    readAll mem len (headerSecs mem) 12 = ok all ↔ MsgRecsIn (mem.take (len + 1)) len all := by
  have c0 := cleanFrom_of_svcNoLong hno
  rw [u16At_take (by omega), u16At_take (by omega), u16At_take (by omega), u16At_take (by omega)] at c0
  constructor
  · intro h
    simp only [readAll, headerSecs] at h
    obtain ⟨⟨r0, p1⟩, h0, h⟩ := bind_eq_ok.mp h
    obtain ⟨m0, h, hm0⟩ := bind_eq_ok.mp h
    obtain ⟨⟨r1, p2⟩, h1, h⟩ := bind_eq_ok.mp h
    obtain ⟨m1, h, hm1⟩ := bind_eq_ok.mp h
    obtain ⟨⟨r2, p3⟩, h2, h⟩ := bind_eq_ok.mp h
    obtain ⟨m2, h, hm2⟩ := bind_eq_ok.mp h
    obtain ⟨⟨r3, p4⟩, h3, h⟩ := bind_eq_ok.mp h
    simp only [ok_bind, ok.injEq] at hm0 hm1 hm2 h
    have c1 := cleanFrom_next hm h64 c0 h0
    have c2 := cleanFrom_next hm h64 c1 h1
    have c3 := cleanFrom_next hm h64 c2 h2
    obtain ⟨e0, b0⟩ := readSec_in_iff (rrs := r0) (o' := p1) hm h64 h12 c0.1
    obtain ⟨e1, b1⟩ := readSec_in_iff (rrs := r1) (o' := p2) hm h64 (b0 h0) c1.1
    obtain ⟨e2, b2⟩ := readSec_in_iff (rrs := r2) (o' := p3) hm h64 (b1 h1) c2.1
    obtain ⟨e3, b3⟩ := readSec_in_iff (rrs := r3) (o' := p4) hm h64 (b2 h2) c3.1
    have e0 := e0.mp h0; have e1 := e1.mp h1; have e2 := e2.mp h2; have e3 := e3.mp h3
    rw [← u16At_in (mem := mem) (eop := len) (by omega)] at e0 e1 e2 e3
    have := MsgRecsIn.mk e0 e1 e2 e3
    rw [← hm0, ← hm1, ← hm2, ← h]
    simpa [List.append_assoc] using this
  · intro h
    cases h with
    | @mk r0 r1 r2 r3 p1 p2 p3 p4 h0 h1 h2 h3 =>
      rw [u16At_in (by omega)] at h0 h1 h2 h3
      obtain ⟨e0, b0⟩ := readSec_in_iff (rrs := r0) (o' := p1) hm h64 h12 c0.1
      have h0 := e0.mpr h0
      have c1 := cleanFrom_next hm h64 c0 h0
      obtain ⟨e1, b1⟩ := readSec_in_iff (rrs := r1) (o' := p2) hm h64 (b0 h0) c1.1
      have h1 := e1.mpr h1
      have c2 := cleanFrom_next hm h64 c1 h1
      obtain ⟨e2, b2⟩ := readSec_in_iff (rrs := r2) (o' := p3) hm h64 (b1 h1) c2.1
      have h2 := e2.mpr h2
      have c3 := cleanFrom_next hm h64 c2 h2
      obtain ⟨e3, b3⟩ := readSec_in_iff (rrs := r3) (o' := p4) hm h64 (b2 h2) c3.1
      have h3 := e3.mpr h3
      simp only [readAll, headerSecs, h0, h1, h2, h3, ok_bind, List.append_nil, List.append_assoc]

end Wdns
