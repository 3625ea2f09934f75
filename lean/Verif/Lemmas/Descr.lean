import Verif.Lemmas.ParseSafe

/-! Helper lemmas: facts about the whole table of record descriptions. -/

namespace Wdns
open Outcome Spec

theorem recordDescr_big {ty : Nat} (h : 258 ≤ ty) : recordDescr ty = none := by
  unfold recordDescr
  split <;> first | omega | rfl

theorem recordDescr_lt {ty : Nat} {d : Descr} (h : recordDescr ty = some d) : ty < 258 := by
  by_contra hc
  rw [recordDescr_big (by omega)] at h
  simp at h

def decTermLast : (ts : List Rdf) → Decidable (TermLast ts)
  | [] => isTrue trivial
  | t :: ts =>
    have := decTermLast ts
    inferInstanceAs (Decidable ((Terminal t → ts = []) ∧ TermLast ts))

instance : DecidablePred TermLast := decTermLast

/-- What every entry of the table satisfies. -/
def DescrFacts (ty : Nat) (d : Descr) : Prop :=
  TermLast d.types ∧ d.types ≠ [] ∧
  (Rdf.svcparams ∈ d.types → (ty = 64 ∨ ty = 65) ∧ d.cls = 1) ∧
  (d.cls = 0 ∨ d.cls = 1) ∧
  (((∀ t ∈ d.types, ¬ Terminal t) ∧ d.types.length ≤ 8) ∨ (∀ t ∈ d.types, ¬ IsName t) ∨
    (d.types.countP (fun t => decide (IsName t)) ≤ 1 ∧
      (ty = 24 ∨ ty = 30 ∨ ty = 46 ∨ ty = 47 ∨ ty = 64 ∨ ty = 65)))

instance (ty : Nat) (d : Descr) : Decidable (DescrFacts ty d) := by unfold DescrFacts; infer_instance

theorem descr_facts {ty : Nat} {d : Descr} (h : recordDescr ty = some d) : DescrFacts ty d := by
  have hall : ∀ ty < 258, ∀ d ∈ recordDescr ty, DescrFacts ty d := by decide +kernel
  exact hall ty (recordDescr_lt h) d h

theorem descr_short {ty : Nat} {d : Descr} (h : recordDescr ty = some d) : d.types.length ≤ 16 := by
  have hall : ∀ ty < 258, ∀ d ∈ recordDescr ty, d.types.length ≤ 16 := by decide +kernel
  exact hall ty (recordDescr_lt h) d h

/-! ### overlong SvcParams -/

theorem longIn_mem {msg : List UInt8} {e : Nat} {ts o} (h : LongIn msg e ts o) : Rdf.svcparams ∈ ts := by
  induction h with
  | here => simp
  | name _ _ _ _ ih => simp [ih]
  | field _ _ _ _ _ ih => simp [ih]

theorem svc_layout {ty : Nat} {d : Descr} (h : recordDescr ty = some d) (hs : Rdf.svcparams ∈ d.types) :
    d.types = [.int16, .name, .svcparams] := by
  have hall : ∀ ty < 258, ∀ d ∈ recordDescr ty, Rdf.svcparams ∈ d.types → d.types = [.int16, .name, .svcparams] := by decide +kernel
  exact hall ty (recordDescr_lt h) d h hs

theorem encEnd_lt_length {msg : List UInt8} {o e : Nat} (h : EncEnd msg o e) : o < msg.length := by
  cases h with
  | root h => exact getElem?_some_lt h
  | ptr h _ => exact getElem?_some_lt h
  | label h _ _ _ => exact getElem?_some_lt h

/-- Without an overlong SvcParam in an SVCB or HTTPS rdata there is none in any rdata. -/
theorem no_longIn {msg : List UInt8} {o rdlen ty cls : Nat} {d : Descr} (hd : recordDescr ty = some d) (ha : d.applies cls = true)
    (hsvc : ty = 64 ∨ ty = 65 → cls = 1 → ¬ LongSvc msg o rdlen) : ¬ LongIn msg (o + rdlen) d.types o := by
  intro h
  have hm := longIn_mem h
  obtain ⟨h1, h2⟩ := (descr_facts hd).2.2.1 hm
  have hcls : cls = 1 := by
    unfold Descr.applies at ha
    rw [h2] at ha
    have : 1 = cls := by simpa using ha
    exact this.symm
  apply hsvc h1 hcls
  rw [svc_layout hd hm] at h
  cases h with
  | name hN => exact absurd hN id
  | @field _ _ _ o' _ h3 h4 h5 h6 =>
    cases h6 with
    | field hN => exact absurd trivial hN
    | @name _ _ _ o2 _ he hle h7 =>
      cases h7 with
      | name hN => exact absurd hN id
      | field _ _ _ _ hx => exact absurd hx (fun h => longIn_nil h)
      | here hL =>
        have hlt := encEnd_lt_length he
        have h5' : ((msg.drop o).take (o' - o)).length = 2 := h5
        rw [List.length_take, List.length_drop] at h5'
        have : o' = o + 2 := by omega
        subst this
        exact ⟨o2, he, hle, hL⟩

/-! ### lengths -/

theorem layout_len_plain {msg base e ts o x} (h : Layout msg base e ts o x) (hm : e ≤ msg.length)
    (hn : ∀ t ∈ ts, ¬ IsName t) : x.length = e - o := by
  induction h with
  | done => simp
  | name _ h2 => exact absurd h2 (hn _ (by simp))
  | @field t ts o o' rest h1 h2 h3 h4 h5 h6 ih =>
    rw [List.length_append, take_drop_length _ _ _ (by omega), ih (fun t ht => hn t (by simp [ht]))]
    omega

theorem denotes_zero {msg base o n} (h : Denotes msg base o n) (h0 : msg[o]? = some 0) : n = [] := by
  cases h with
  | root => rfl
  | label h1 h2 => rw [h0] at h1; cases h1; simp at h2
  | ptr h1 h2 => rw [h0] at h1; cases h1; simp at h2

theorem name_len {msg base o n o'} (h : Denotes msg base o n) (hw : WF n) (he : EncEnd msg o o') :
    (wire n).length ≤ (o' - o) + 253 := by
  have := hw.2
  cases he with
  | root h0 => rw [denotes_zero h h0]; simp [wire]
  | ptr _ _ => omega
  | label _ h1 _ h3 => have := encEnd_lt h3; omega

theorem layout_len_le {msg base e ts o x} (h : Layout msg base e ts o x) (hm : e ≤ msg.length) :
    x.length ≤ (e - o) + 253 * ts.countP (fun t => decide (IsName t)) := by
  induction h with
  | done => simp
  | @name t ts o o' n rest h1 h2 h3 h4 h5 h6 h7 ih =>
    have := name_len h3 h4 h5
    have hlt := encEnd_lt h5
    rw [List.length_append, List.countP_cons_of_pos (by simpa using h2)]
    omega
  | @field t ts o o' rest h1 h2 h3 h4 h5 h6 ih =>
    rw [List.length_append, take_drop_length _ _ _ (by omega)]
    have : ts.countP (fun t => decide (IsName t)) ≤ (t :: ts).countP (fun t => decide (IsName t)) := by
      rw [List.countP_cons]; omega
    omega

theorem layout_len_noterm {msg base e ts o x} (h : Layout msg base e ts o x) (hT : ∀ t ∈ ts, ¬ Terminal t) :
    x.length ≤ 256 * ts.length := by
  induction h with
  | done => simp
  | @name t ts o o' n rest h1 h2 h3 h4 h5 h6 h7 ih =>
    have := h4.2
    have := ih (fun t ht => hT t (by simp [ht]))
    simp only [List.length_append, List.length_cons]; omega
  | @field t ts o o' rest h1 h2 h3 h4 h5 h6 ih =>
    have := fieldOK_len h4 (hT t (by simp))
    have := ih (fun t ht => hT t (by simp [ht]))
    rw [List.length_append, List.length_cons]; omega

end Wdns
