import Verif.Lemmas.ParseRdata

/-! Helper lemmas: sequences of rdata fields. -/

namespace Wdns
open Outcome Spec

/-- Fields extending to the end of the rdata only occur last. -/
def TermLast : List Rdf → Prop
  | [] => True
  | t :: ts => (Terminal t → ts = []) ∧ TermLast ts

theorem encEnd_functional {msg o e} (h : EncEnd msg o e) : ∀ {e'}, EncEnd msg o e' → e = e' := by
  induction h with
  | root h => intro e' h'; cases h' with
    | root _ => rfl
    | ptr h1 h2 => rw [h] at h1; cases h1; simp at h2
    | label h1 h2 _ _ => rw [h] at h1; cases h1; simp at h2
  | ptr h h0 => intro e' h'; cases h' with
    | root h1 => rw [h] at h1; cases h1; simp at h0
    | ptr h1 h2 => rfl
    | label h1 h2 h3 _ => rw [h] at h1; cases h1; omega
  | label h h1 h2 _ ih => intro e' h'; cases h' with
    | root h3 => rw [h] at h3; cases h3; simp at h1
    | ptr h3 h4 => rw [h] at h3; cases h3; omega
    | label h3 _ _ h6 => rw [h] at h3; cases h3; exact ih h6

theorem encEnd_of_stored {msg : List UInt8} : ∀ {n : Name} {o : Nat},
    (∀ l ∈ n, LabelOK l) → wire n <+: msg.drop o → EncEnd msg o (o + (wire n).length) := by
  intro n
  induction n with
  | nil => intro o _ h; exact .root (stored_nil.mp h)
  | cons l n ih =>
    intro o hok h
    obtain ⟨h1, h2, h3⟩ := stored_cons.mp h
    have hl := hok l (by simp)
    have e := ofNat_label_toNat hl
    refine .label h1 (by rw [e]; exact hl.1) (by rw [e]; exact hl.2) ?_
    rw [e]
    have := ih (fun l hm => hok l (by simp [hm])) h3
    rw [wire_cons_length]
    rw [show o + 1 + l.length + (wire n).length = o + (l.length + 1 + (wire n).length) by omega] at this
    exact this

theorem encEnd_lt {msg o e} (h : EncEnd msg o e) : o < e := by
  induction h with
  | root => omega
  | ptr => omega
  | label => omega

theorem layout_le {msg base e ts o x} (h : Layout msg base e ts o x) : o ≤ e := by
  cases h with
  | done => exact Nat.le_refl _
  | name h _ _ _ _ _ _ => omega
  | field h _ _ _ _ _ => omega

theorem pField_name {mem p eop t src b out} (h : IsName t) :
    pField mem p eop t ⟨src, b, out⟩ = (do
      let (nm, len) ← unpackName maxlenName mem p eop src
      let (src', k) ← skipName mem src eop
      if b < k then err .outOfBounds
      else ok ⟨src', b - k, out ++ nm.take len⟩) := by
  cases t <;> first | rfl | exact absurd h id

theorem pFields_complete {mem : List UInt8} {p eop e : Nat} (he : e ≤ eop) (hm : eop ≤ mem.length)
    (h64 : eop < 2 ^ 64) {ts o x} (h : Layout (mem.take eop) p e ts o x) (hp : p ≤ o)
    (hl : e - o < 65536) : ∀ out,
    pFields mem p eop ts ⟨o, e - o, out⟩ = ok ⟨e, 0, out ++ x⟩ := by
  induction h with
  | @done ts => intro out; cases ts <;> simp [pFields]
  | @name t ts o o' n rest h1 h2 h3 h4 h5 h6 h7 ih =>
    intro out
    have hlt := encEnd_lt h5
    simp only [pFields]
    rw [if_neg (by omega), pField_name h2]
    have hu := C02_unpack_complete maxlenName mem p eop o n (by decide) hp (by omega) hm h3 h4
    obtain ⟨e', he1, he2, he3⟩ := C08_skip_agrees mem p o eop n h64 h3
    have := encEnd_functional h5 he1
    subst this
    simp only [hu, he3, ok_bind]
    rw [if_neg (by omega)]
    simp only [ok_bind]
    have := ih (by omega) (by omega) (out ++ wire n)
    rw [show e - o - (o' - o) = e - o' by omega]
    simp [this]
  | @field t ts o o' rest h1 h2 h3 h4 h5 h6 ih =>
    intro out
    simp only [pFields]
    rw [if_neg (by omega)]
    have hlen : ((mem.take eop).drop o).take (o' - o) = (mem.drop o).take (o' - o) := by
      apply slice_congr; intro j _ _; exact getElem?_take_lt (by omega)
    rw [hlen] at h4 ⊢
    have hf : ((mem.drop o).take (o' - o)).length = o' - o := take_drop_length _ _ _ (by omega)
    have hw : Win mem o ((mem.drop o).take (o' - o) ++ (mem.drop o').take (e - o')) := by
      have h := Win.mk' (mem := mem) (o := o) (n := e - o) (by omega)
      rw [show e - o = (o' - o) + (e - o') by omega, List.take_add, List.drop_drop,
        show o + (o' - o) = o' by omega] at h
      exact h
    have hr : ((mem.drop o').take (e - o')).length = e - o' := take_drop_length _ _ _ (by omega)
    rw [pField_complete h4 hw (by
        intro h; have := congrArg List.length h
        rw [List.length_append, hf, hr] at this; simp at this; omega)
      (by rw [List.length_append, hf, hr]; omega)
      (by intro h; rw [h5 h]; simp) (by rw [List.length_append, hf, hr]; omega)]
    simp only [ok_bind, hf, hr]
    rw [show o + (o' - o) = o' by omega, ih (by omega) (by omega)]
    simp

/-- The fields of the types `ts` from `o` to `e`, names possibly compressed, contain an overlong SvcParam. -/
inductive LongIn (msg : List UInt8) (e : Nat) : List Rdf → Nat → Prop
  | here {ts o} : LongParam ((msg.drop o).take (e - o)) → LongIn msg e (.svcparams :: ts) o
  | name {t ts o o'} : IsName t → EncEnd msg o o' → o' ≤ e → LongIn msg e ts o' → LongIn msg e (t :: ts) o
  | field {t ts o o'} : ¬ IsName t → o ≤ o' → o' ≤ e → FieldOK t ((msg.drop o).take (o' - o)) → LongIn msg e ts o' → LongIn msg e (t :: ts) o

theorem longIn_end {msg : List UInt8} {e : Nat} {ts o} (h : LongIn msg e ts o) : o < e := by
  induction h with
  | @here ts o h =>
    have := longParam_len h
    simp only [List.length_take] at this
    omega
  | name h1 h2 h3 h4 ih => have := encEnd_lt h2; omega
  | field h1 h2 h3 h4 h5 ih => omega

theorem longIn_nil {msg : List UInt8} {e o : Nat} (h : LongIn msg e [] o) : False := by cases h

theorem pFields_sound {msg : List UInt8} {p : Nat} (h64 : msg.length < 2 ^ 64) : ∀ {ts} {src b : Nat} {out : List UInt8} {s' : Nat}
    {out' : List UInt8}, TermLast ts → p ≤ src → src + b ≤ msg.length → b < 65536 →
    ¬ LongIn msg (src + b) ts src →
    pFields msg p msg.length ts ⟨src, b, out⟩ = ok ⟨s', 0, out'⟩ →
    ∃ x, out' = out ++ x ∧ Layout msg p (src + b) ts src x := by
  intro ts
  induction ts with
  | nil =>
    intro src b out s' out' _ _ _ _ _ h
    simp only [pFields, ok.injEq, PState.mk.injEq] at h
    obtain ⟨rfl, rfl, rfl⟩ := h
    exact ⟨[], by simp, .done⟩
  | cons t ts ih =>
    intro src b out s' out' hT hp hl hb hno h
    simp only [pFields] at h
    by_cases hb0 : b = 0
    · subst hb0
      simp only [if_true, ok.injEq, PState.mk.injEq] at h
      obtain ⟨rfl, _, rfl⟩ := h
      exact ⟨[], by simp, .done⟩
    · rw [if_neg hb0] at h
      by_cases hN : IsName t
      · rw [pField_name hN] at h
        obtain ⟨st1, hst, hrest⟩ := bind_eq_ok.mp h
        obtain ⟨⟨nm, len⟩, hu, hst⟩ := bind_eq_ok.mp hst
        obtain ⟨⟨o', k⟩, hs, hst⟩ := bind_eq_ok.mp hst
        simp only at hst
        obtain ⟨n, hd, hwf, rfl, rfl⟩ := (C02_unpack_exact_partial maxlenName msg p src nm len
          (by decide) hp (by omega)).mp hu
        obtain ⟨e', he1, he2, he3⟩ := C08_skip_agrees_unpack msg p src _ _ h64 hu
        rw [he3] at hs
        simp only [ok.injEq, Prod.mk.injEq] at hs
        obtain ⟨rfl, rfl⟩ := hs
        have hlt := encEnd_lt he1
        by_cases hk : b < e' - src
        · rw [if_pos hk] at hst; simp at hst
        · rw [if_neg hk, ok.injEq] at hst
          subst hst
          rw [List.take_length] at hrest
          obtain ⟨x, hx1, hx2⟩ := ih hT.2 (by omega) (by omega) (by omega) (by
            intro hm
            rw [show e' + (b - (e' - src)) = src + b by omega] at hm
            exact hno (.name hN he1 (by omega) hm)) hrest
          rw [show e' + (b - (e' - src)) = src + b by omega] at hx2
          exact ⟨wire n ++ x, by rw [hx1]; simp, .name (by omega) hN hd hwf he1 (by omega) hx2⟩
      · have hw := Win.mk' (mem := msg) (o := src) (n := b) hl
        have hwl := take_drop_length msg src b hl
        have hspec := pField_spec (p := p) (eop := msg.length) (out := out) hN hw
          (by intro h; rw [h] at hwl; simp at hwl; omega) (by rw [hwl]; exact hb)
          (by rintro rfl hL; exact hno (.here (by rw [show src + b - src = b by omega]; exact hL)))
        rw [hwl] at hspec
        rcases hspec with ⟨f, rest, e, hf, ht, hr⟩ | ⟨_, ⟨e, hr⟩ | ⟨hterm, s, o, hr⟩⟩
        · rw [hr, ok_bind] at h
          have el := congrArg List.length e
          rw [hwl, List.length_append] at el
          have hrest : rest = (msg.drop (src + f.length)).take (b - f.length) := by
            have := congrArg (List.drop f.length) e
            rw [List.drop_take, List.drop_drop, List.drop_left] at this
            exact this.symm
          have hfe : f = (msg.drop src).take (src + f.length - src) := by
            have := congrArg (List.take f.length) e
            rw [List.take_take, List.take_left, Nat.min_eq_left (by omega)] at this
            rw [show src + f.length - src = f.length by omega]
            exact this.symm
          obtain ⟨x, hx1, hx2⟩ := ih hT.2 (by omega) (by omega) (by omega) (by
            intro hm
            rw [show src + f.length + rest.length = src + b by omega] at hm
            exact hno (.field hN (o' := src + f.length) (by omega) (by omega) (by rw [← hfe]; exact hf) hm)) h
          rw [show src + f.length + rest.length = src + b by omega] at hx2
          refine ⟨f ++ x, by rw [hx1]; simp, ?_⟩
          have := Layout.field (t := t) (o := src) (o' := src + f.length) (by omega) (by omega) (by omega)
            (by rw [← hfe]; exact hf) (by
              intro hterm
              have := ht hterm
              subst this; simp at el; omega) hx2
          rw [← hfe] at this
          exact this
        · rw [hr] at h; simp at h
        · rw [hr, ok_bind, hT.1 hterm] at h
          simp [pFields] at h

/-! ### stored rdata -/

theorem layout_ne_nil {msg base e ts o x} (h : Layout msg base e ts o x) (hm : e ≤ msg.length) : o < e → x ≠ [] := by
  induction h with
  | done => intro h; omega
  | @name t ts o o' n rest h1 h2 h3 h4 h5 h6 h7 ih =>
    intro _ h
    exact wire_ne_nil n (List.append_eq_nil_iff.mp h).1
  | @field t ts o o' rest h1 h2 h3 h4 h5 h6 ih =>
    intro _ h
    have hlen := take_drop_length msg o (o' - o) (by omega)
    by_cases ho : o' = o
    · subst ho
      exact ih h1 (List.append_eq_nil_iff.mp h).2
    · have := congrArg List.length (List.append_eq_nil_iff.mp h).1
      rw [hlen] at this; simp at this; omega

theorem conforms_of_layout {msg base e ts o x} (h : Layout msg base e ts o x) (hm : e ≤ msg.length) :
    Conforms ts x := by
  induction h with
  | done => exact .done
  | name h1 h2 h3 h4 h5 h6 h7 ih => exact .name h2 h4 ih
  | @field t ts o o' rest h1 h2 h3 h4 h5 h6 ih =>
    refine .field h4 (layout_ne_nil (.field h1 h2 h3 h4 h5 h6) hm h1) ?_ ih
    intro hT
    have := h5 hT
    subst this
    cases h6 with
    | done => rfl
    | name h => omega
    | field h => omega

theorem layout_of_conforms {msg : List UInt8} {base : Nat} {ts x} (h : Conforms ts x) : ∀ {o}, Win msg o x →
    Layout msg base (o + x.length) ts o x := by
  induction h with
  | done => intro o _; exact .done
  | @name t ts n rest h1 h2 h3 ih =>
    intro o hw
    have hl := hw.len
    have hpos := wire_length_pos n
    simp only [List.length_append] at hl ⊢
    have := ih hw.right
    rw [Nat.add_assoc] at this
    exact .name (by omega) h1 (denotes_of_stored h2.1 hw.left.2) h2 (encEnd_of_stored h2.1 hw.left.2)
      (by omega) this
  | @field t ts f rest h1 h2 h3 h4 ih =>
    intro o hw
    have hl := hw.len
    have hpos : 0 < (f ++ rest).length := List.length_pos_iff.mpr h2
    simp only [List.length_append] at hl hpos ⊢
    have := ih hw.right
    rw [Nat.add_assoc] at this
    have e := hw.left.eq
    have hfe : (msg.drop o).take (o + f.length - o) = f := by
      rw [show o + f.length - o = f.length by omega]; exact e
    have r := Layout.field (t := t) (o := o) (o' := o + f.length) (by omega) (by omega) (by omega)
      (by rw [hfe]; exact h1) (by intro hT; rw [h3 hT]; simp) this
    rw [hfe] at r
    exact r

end Wdns
