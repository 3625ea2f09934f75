import Verif.Lemmas.ParseFields

/-! Helper lemmas: rdata parsing returns, depends only on the packet, length of the stored rdata. -/

namespace Wdns
open Outcome Spec

theorem pCopy_local {mem mem' : List UInt8} {eop : Nat} (h : ∀ i, i ≤ eop → mem[i]? = mem'[i]?)
    (hl : eop ≤ mem.length) (hl' : eop ≤ mem'.length) (st : PState)
    (hs : st.src + st.bytes ≤ eop) (x : Nat) :
    pCopy mem st x = pCopy mem' st x := by
  unfold pCopy
  split
  · rfl
  · rw [rdN_ok (by omega), rdN_ok (by omega), slice_congr (m' := mem') (fun j _ _ => h j (by omega))]

theorem rd_local {mem mem' : List UInt8} {eop : Nat} (h : ∀ i, i ≤ eop → mem[i]? = mem'[i]?) {i : Nat}
    (hi : i ≤ eop) : rd mem i = rd mem' i := by unfold rd; rw [h i hi]

/-- A step keeps `src + bytes`. -/
theorem pCopy_sum {mem : List UInt8} {st st' : PState} {x : Nat} (h : pCopy mem st x = ok st') :
    st'.src + st'.bytes = st.src + st.bytes := by
  unfold pCopy at h
  split at h
  · simp at h
  · obtain ⟨b, _, h⟩ := bind_eq_ok.mp h
    simp only [ok.injEq] at h
    subst h; simp; omega

theorem skipLoop_local {mem mem' : List UInt8} {eop : Nat} (h : ∀ i, i ≤ eop → mem[i]? = mem'[i]?) :
    ∀ fuel src, skipLoop mem eop fuel src = skipLoop mem' eop fuel src := by
  intro fuel
  induction fuel with
  | zero => intro src; rfl
  | succ fuel ih =>
    intro src
    simp only [skipLoop]
    split
    · rw [rd_local h (by assumption)]
      cases rd mem' src <;> simp [ih]
    · rfl

theorem skipName_local {mem mem' : List UInt8} {eop : Nat} (h : ∀ i, i ≤ eop → mem[i]? = mem'[i]?) (src : Nat) :
    skipName mem src eop = skipName mem' src eop := by
  simp only [skipName, skipLoop_local h]

theorem pRepstring_local {mem mem' : List UInt8} {eop : Nat} (h : ∀ i, i ≤ eop → mem[i]? = mem'[i]?)
    (hl : eop ≤ mem.length) (hl' : eop ≤ mem'.length) : ∀ fuel st, st.src + st.bytes ≤ eop →
    pRepstring mem fuel st = pRepstring mem' fuel st := by
  intro fuel
  induction fuel with
  | zero => intro st _; rfl
  | succ fuel ih =>
    intro st hs
    simp only [pRepstring]
    split
    · rw [rd_local h (by omega)]
      cases rd mem' st.src with
      | ok oclen =>
        simp only [ok_bind]
        rw [pCopy_local h hl hl' _ (by omega)]
        cases hc : pCopy mem' st (oclen.toNat + 1) with
        | ok st' =>
          simp only [ok_bind]
          exact ih _ (by rw [pCopy_sum hc]; exact hs)
        | _ => rfl
      | _ => rfl
    · rfl

theorem pBitmap_local {mem mem' : List UInt8} {eop : Nat} (h : ∀ i, i ≤ eop → mem[i]? = mem'[i]?)
    (hl : eop ≤ mem.length) (hl' : eop ≤ mem'.length) : ∀ fuel st, st.src + st.bytes ≤ eop →
    pBitmap mem fuel st = pBitmap mem' fuel st := by
  intro fuel
  induction fuel with
  | zero => intro st _; rfl
  | succ fuel ih =>
    intro st hs
    simp only [pBitmap]
    split
    · rw [rd_local h (by omega)]
      cases rd mem' (st.src + 1) with
      | ok oclen =>
        simp only [ok_bind]
        rw [pCopy_local h hl hl' _ (by omega)]
        cases hc : pCopy mem' st (2 + oclen.toNat) with
        | ok st' =>
          simp only [ok_bind]
          rw [ih _ (by rw [pCopy_sum hc]; exact hs)]
        | _ => rfl
      | _ => rfl
    · rfl

theorem alpnLoop_local {mem mem' : List UInt8} {eop : Nat} (h : ∀ i, i ≤ eop → mem[i]? = mem'[i]?)
    {val valLen : Nat} (hv : val + valLen ≤ eop) : ∀ fuel i,
    alpnLoop mem val valLen fuel i = alpnLoop mem' val valLen fuel i := by
  intro fuel
  induction fuel with
  | zero => intro i; rfl
  | succ fuel ih =>
    intro i
    simp only [alpnLoop]
    split
    · rw [rd_local h (by omega)]
      simp only [ih]
    · rfl

theorem svcparamKeyValidate_local {mem mem' : List UInt8} {eop : Nat} (h : ∀ i, i ≤ eop → mem[i]? = mem'[i]?)
    {val valLen : Nat} (hv : val + valLen ≤ eop) (key : Nat) :
    svcparamKeyValidate mem key valLen val = svcparamKeyValidate mem' key valLen val := by
  simp only [svcparamKeyValidate, alpnLoop_local h hv]

theorem pSvcparams_local {mem mem' : List UInt8} {eop : Nat} (h : ∀ i, i ≤ eop → mem[i]? = mem'[i]?)
    (hl : eop ≤ mem.length) (hl' : eop ≤ mem'.length) : ∀ fuel st, st.src + st.bytes ≤ eop →
    ¬ LongParam ((mem.drop st.src).take st.bytes) →
    pSvcparams mem fuel st = pSvcparams mem' fuel st := by
  intro fuel
  induction fuel with
  | zero => intro st _ _; rfl
  | succ fuel ih =>
    intro st hs hno
    simp only [pSvcparams]
    by_cases hb : st.bytes > 0
    · simp only [hb, if_true]
      by_cases h4 : st.bytes < 4
      · simp only [h4, if_true]
      simp only [h4, if_false]
      rw [← rd_local h (i := st.src) (by omega), ← rd_local h (i := st.src + 1) (by omega),
        ← rd_local h (i := st.src + 2) (by omega), ← rd_local h (i := st.src + 3) (by omega)]
      rw [rd_of_lt (by omega), rd_of_lt (by omega), rd_of_lt (by omega), rd_of_lt (by omega)]
      simp only [ok_bind]
      have hwin : (mem.drop st.src).take st.bytes =
          mem[st.src] :: mem[st.src + 1] :: mem[st.src + 2] :: mem[st.src + 3] :: (mem.drop (st.src + 4)).take (st.bytes - 4) := by
        obtain ⟨m, hm⟩ : ∃ m, st.bytes = m + 4 := ⟨st.bytes - 4, by omega⟩
        rw [hm, List.drop_eq_getElem_cons (by omega), List.drop_eq_getElem_cons (i := st.src + 1) (by omega),
          List.drop_eq_getElem_cons (i := st.src + 1 + 1) (by omega), List.drop_eq_getElem_cons (i := st.src + 1 + 1 + 1) (by omega)]
        simp only [List.take_succ_cons]
        simp
      rw [hwin, longParam_iff] at hno
      generalize be16 mem[st.src + 2] mem[st.src + 3] = vl at hno ⊢
      generalize be16 mem[st.src] mem[st.src + 1] = key at hno ⊢
      by_cases hlong : 65532 ≤ vl
      · have hn : ¬ SvcLenOK key vl := fun hh => hno (.inl ⟨hlong, hh⟩)
        rw [validate_false hn, validate_false hn]
        rfl
      by_cases hvb : vl ≤ st.bytes - 4
      · rw [Nat.mod_eq_of_lt (by omega)]
        have hwv : Win mem (st.src + 4) ((mem.drop (st.src + 4)).take vl) := Win.mk' (by omega)
        have hwvl := take_drop_length mem (st.src + 4) vl (by omega)
        obtain ⟨v, hv1, hv2⟩ := svcparam_ok hwv key
        rw [hwvl] at hv1
        rw [← svcparamKeyValidate_local h (by omega), hv1]
        simp only [ok_bind, show ¬ (2 + 2 + vl > st.bytes) by omega, if_false]
        cases v with
        | false => rfl
        | true =>
          simp only [Bool.true_eq_false, if_false]
          rw [pCopy_local h hl hl' _ hs]
          cases hc : pCopy mem' st (2 + 2 + vl) with
          | ok st' =>
            simp only [ok_bind]
            have hsum := pCopy_sum hc
            have hsrc : st'.src = st.src + (2 + 2 + vl) := by
              unfold pCopy at hc
              split at hc
              · simp at hc
              · obtain ⟨b, _, hc⟩ := bind_eq_ok.mp hc
                simp only [ok.injEq] at hc
                subst hc; rfl
            refine ih _ (by omega) ?_
            intro hL
            apply hno
            refine .inr ⟨?_, ?_, ?_⟩
            · rw [take_drop_length _ _ _ (by omega)]; exact hvb
            · rw [List.take_take, Nat.min_eq_left hvb]; exact hv2.mp rfl
            · rw [List.drop_take, List.drop_drop, show st.src + 4 + vl = st'.src by omega, show st.bytes - 4 - vl = st'.bytes by omega]
              exact hL
          | _ => rfl
      · rw [Nat.mod_eq_of_lt (by omega)]
        simp only [show 2 + 2 + vl > st.bytes by omega, if_true]
    · simp only [hb, if_false]

theorem encEnd_shrink {mem : List UInt8} {eop o e : Nat} (h : EncEnd (mem.take (eop + 1)) o e) : e ≤ eop → EncEnd (mem.take eop) o e := by
  have key : ∀ {i : Nat} {b : UInt8}, (mem.take (eop + 1))[i]? = some b → i < eop → (mem.take eop)[i]? = some b := by
    intro i b h hi
    rw [getElem?_take_lt hi]
    rwa [getElem?_take_lt (by omega)] at h
  induction h with
  | root h => intro he; exact .root (key h (by omega))
  | ptr h h0 => intro he; exact .ptr (key h (by omega)) h0
  | @label o c e h h1 h2 h3 ih =>
    intro he
    have := encEnd_lt h3
    exact .label (key h (by omega)) h1 h2 (ih he)

theorem skipLoop_encEnd' {mem eod o e} (h : EncEnd (mem.take (eod + 1)) o e) : ∀ fuel, eod + 1 < fuel + o →
    skipLoop mem eod fuel o = ok (e - 1) := by
  have key : ∀ {i : Nat} {b : UInt8}, (mem.take (eod + 1))[i]? = some b → i ≤ eod ∧ mem[i]? = some b := by
    intro i b h
    have := getElem?_some_lt h
    simp only [List.length_take] at this
    rw [getElem?_take_lt (by omega)] at h
    exact ⟨by omega, h⟩
  induction h with
  | root h =>
    intro fuel hf
    obtain ⟨h1, h2⟩ := key h
    obtain ⟨f, rfl⟩ : ∃ f, fuel = f + 1 := ⟨fuel - 1, by omega⟩
    rw [skip_step (by omega) h2]; simp
  | @ptr o hi h h192 =>
    intro fuel hf
    obtain ⟨h1, h2⟩ := key h
    obtain ⟨f, rfl⟩ : ∃ f, fuel = f + 1 := ⟨fuel - 1, by omega⟩
    rw [skip_step (by omega) h2, if_neg (by rw [u8_eq_zero]; omega), if_pos (by omega)]
    simp
  | @label o c e h h63 h64 _ ih =>
    intro fuel hf
    obtain ⟨h1, h2⟩ := key h
    obtain ⟨f, rfl⟩ : ∃ f, fuel = f + 1 := ⟨fuel - 1, by omega⟩
    rw [skip_step (by omega) h2, if_neg (by rw [u8_eq_zero]; omega), if_neg (by omega)]
    have := ih f (by omega)
    rw [show o + (c.toNat + 1) = o + 1 + c.toNat by omega]
    exact this

/-- What unpacking and skipping a name give, whatever follows the packet. -/
theorem unpack_skip {mem : List UInt8} {p eop src : Nat} {nm : List UInt8} {len s k : Nat} (h64 : eop < 2 ^ 64)
    (hu : unpackName maxlenName mem p eop src = ok (nm, len)) (hs : skipName mem src eop = ok (s, k)) :
    p ≤ src ∧ src < eop ∧ ∃ n e, Denotes (mem.take (eop + 1)) p src n ∧ WF n ∧ nm = wire n ∧ len = (wire n).length ∧
      EncEnd (mem.take (eop + 1)) src e ∧ e ≤ eop + 1 ∧ s = min e eop ∧ k = s - src := by
  have hb : p ≤ src ∧ src < eop := by
    unfold unpackName at hu
    split at hu
    · simp at hu
    · omega
  obtain ⟨n, hd, hwf, h1, h2⟩ := (C02_unpack_exact_overread maxlenName mem p eop src nm len (by decide) hb.1 hb.2).mp hu
  obtain ⟨e, he1, he2⟩ := encEnd_of_denotes hd
  simp only [List.length_take] at he2
  have hlt := encEnd_lt he1
  refine ⟨hb.1, hb.2, n, e, hd, hwf, h1, h2, he1, by omega, ?_⟩
  simp only [skipName, skipLoop_encEnd' he1 (eop + 2) (by omega), ok_bind, ok.injEq, Prod.mk.injEq] at hs
  obtain ⟨hs1, hs2⟩ := hs
  constructor
  · rw [← hs1]; split <;> omega
  · rw [hs1] at hs2
    have : s ≤ eop ∧ src ≤ s := by rw [← hs1]; split <;> omega
    omega

/-- One name field, whatever follows the packet. -/
theorem name_step {mem : List UInt8} {p eop src b : Nat} {out : List UInt8} {t : Rdf} {st : PState} (h64 : eop < 2 ^ 64) (hN : IsName t)
    (h : pField mem p eop t ⟨src, b, out⟩ = ok st) :
    ∃ n, WF n ∧ st.out = out ++ wire n ∧ src < eop ∧ st.src + st.bytes = src + b ∧ src ≤ st.src ∧ st.src ≤ eop ∧
      (st.src = eop ∨ EncEnd (mem.take eop) src st.src) ∧ (src < st.src) := by
  rw [pField_name hN] at h
  obtain ⟨⟨nm, len⟩, hu, h⟩ := bind_eq_ok.mp h
  obtain ⟨⟨s, k⟩, hs, h⟩ := bind_eq_ok.mp h
  obtain ⟨h1, h2, n, e, h3, h4, rfl, rfl, h5, h6, h7, h8⟩ := unpack_skip h64 hu hs
  have hlt := encEnd_lt h5
  simp only at h
  split at h
  · simp at h
  · simp only [ok.injEq] at h
    subst h
    refine ⟨n, h4, by simp, h2, by simp; omega, by simp; omega, by simp; omega, ?_, by simp; omega⟩
    simp only
    by_cases he : s = eop
    · exact .inl he
    · right
      have : s = e := by omega
      rw [this]
      exact encEnd_shrink h5 (by omega)

theorem fieldOK_len {t : Rdf} {f : List UInt8} (h : FieldOK t f) (hT : ¬ Terminal t) : f.length ≤ 256 := by
  cases t <;> first | exact absurd trivial hT | exact absurd h id | skip
  all_goals simp only [FieldOK, Prefix6] at h
  all_goals first | omega | skip
  case ipv6prefix =>
    obtain ⟨pl, s, rfl, h1, h2⟩ := h
    simp; omega
  all_goals
    obtain ⟨l, s, rfl, h1⟩ := h
    have := u8_lt l
    simp; omega

/-- Soundness of the field loop whatever follows the packet: the stored octets are the uncompressed form of fields that end where the rdata ends, or, if
the rdata ends with the packet, one octet later (then the last field is a name whose last octet is the one behind the packet). -/
theorem pFields_sound_mem {mem : List UInt8} {p eop : Nat} (hm : eop ≤ mem.length) (h64 : eop < 2 ^ 64) : ∀ {ts} {src b : Nat} {out : List UInt8}
    {s' : Nat} {out' : List UInt8}, TermLast ts → p ≤ src → src + b ≤ eop → b < 65536 →
    ¬ LongIn (mem.take eop) (src + b) ts src →
    pFields mem p eop ts ⟨src, b, out⟩ = ok ⟨s', 0, out'⟩ →
    ∃ x e, out' = out ++ x ∧ Layout (mem.take (eop + 1)) p e ts src x ∧ e ≤ (mem.take (eop + 1)).length ∧
      (e = src + b ∨ src + b = eop ∧ e = eop + 1 ∧ x.length ≤ 256 * ts.length) := by
  intro ts
  induction ts with
  | nil =>
    intro src b out s' out' _ _ hl _ _ h
    simp only [pFields, ok.injEq, PState.mk.injEq] at h
    obtain ⟨rfl, rfl, rfl⟩ := h
    exact ⟨[], src, by simp, .done, by simp; omega, .inl rfl⟩
  | cons t ts ih =>
    intro src b out s' out' hT hp hl hb hno h
    simp only [pFields] at h
    by_cases hb0 : b = 0
    · subst hb0
      simp only [if_true, ok.injEq, PState.mk.injEq] at h
      obtain ⟨rfl, _, rfl⟩ := h
      exact ⟨[], src, by simp, .done, by simp; omega, .inl rfl⟩
    · rw [if_neg hb0] at h
      by_cases hN : IsName t
      · rw [pField_name hN] at h
        obtain ⟨st1, hst, hrest⟩ := bind_eq_ok.mp h
        obtain ⟨⟨nm, len⟩, hu, hst⟩ := bind_eq_ok.mp hst
        obtain ⟨⟨s, k⟩, hs, hst⟩ := bind_eq_ok.mp hst
        simp only at hst
        obtain ⟨_, h2, n, e', hd, hwf, rfl, rfl, he1, he2, he3, he4⟩ := unpack_skip h64 hu hs
        have hlt := encEnd_lt he1
        by_cases hk : b < k
        · rw [if_pos hk] at hst; simp at hst
        rw [if_neg hk, ok.injEq] at hst
        subst hst
        rw [List.take_length] at hrest
        by_cases hov : e' = eop + 1
        · have hbk : b - k = 0 := by omega
          rw [hbk] at hrest
          have : pFields mem p eop ts ⟨s, 0, out ++ wire n⟩ = ok ⟨s, 0, out ++ wire n⟩ := by
            cases ts with
            | nil => rfl
            | cons t ts => simp [pFields]
          rw [this] at hrest
          simp only [ok.injEq, PState.mk.injEq] at hrest
          obtain ⟨rfl, _, rfl⟩ := hrest
          obtain ⟨e2, hee, hel⟩ := encEnd_of_denotes hd
          have := encEnd_functional hee he1
          subst this
          have hwl := hwf.2
          refine ⟨wire n, e2, by simp, ?_, hel, .inr ⟨by omega, hov, by simp only [List.length_cons]; omega⟩⟩
          have := Layout.name (t := t) (ts := ts) (e := e2) (by omega) hN hd hwf he1 (Nat.le_refl _) .done
          simpa using this
        · have hse : s = e' := by omega
          subst hse
          obtain ⟨x, e, hx1, hx2, hx3, hx4⟩ := ih hT.2 (by omega) (by omega) (by omega) (by
            intro hm
            rw [show s + (b - k) = src + b by omega] at hm
            exact hno (.name hN (encEnd_shrink he1 (by omega)) (by omega) hm)) hrest
          refine ⟨wire n ++ x, e, by rw [hx1]; simp, .name (by omega) hN hd hwf he1 (by omega) hx2, hx3, ?_⟩
          have hwl := hwf.2
          simp only [List.length_append, List.length_cons]
          omega
      · have hw := Win.mk' (mem := mem) (o := src) (n := b) (by omega)
        have hwl := take_drop_length mem src b (by omega)
        have hst : ((mem.take eop).drop src).take b = (mem.drop src).take b := slice_congr (fun j _ _ => getElem?_take_lt (by omega))
        have hst' : ((mem.take (eop + 1)).drop src).take b = (mem.drop src).take b := slice_congr (fun j _ _ => getElem?_take_lt (by omega))
        have hspec := pField_spec (p := p) (eop := eop) (out := out) hN hw
          (by intro h; rw [h] at hwl; simp at hwl; omega) (by rw [hwl]; exact hb)
          (by rintro rfl hL; exact hno (.here (by rw [show src + b - src = b by omega, hst]; exact hL)))
        rw [hwl] at hspec
        rcases hspec with ⟨f, rest, e, hf, ht, hr⟩ | ⟨_, ⟨e, hr⟩ | ⟨hterm, s, o, hr⟩⟩
        · rw [hr, ok_bind] at h
          have el := congrArg List.length e
          rw [hwl, List.length_append] at el
          have hcut : ∀ m : List UInt8, (m.drop src).take b = (mem.drop src).take b → f = (m.drop src).take (src + f.length - src) := by
            intro m hm
            rw [← hm] at e
            have := congrArg (List.take f.length) e
            rw [List.take_take, List.take_left, Nat.min_eq_left (by omega)] at this
            rw [show src + f.length - src = f.length by omega]
            exact this.symm
          have hfe := hcut _ hst
          have hfe' := hcut _ hst'
          obtain ⟨x, e2, hx1, hx2, hx3, hx4⟩ := ih hT.2 (by omega) (by omega) (by omega) (by
            intro hm
            rw [show src + f.length + rest.length = src + b by omega] at hm
            exact hno (.field hN (o' := src + f.length) (by omega) (by omega) (by rw [← hfe]; exact hf) hm)) h
          have hle := layout_le hx2
          have hfl : e2 = eop + 1 → f.length ≤ 256 := by
            intro he
            by_cases hterm : Terminal t
            · exfalso
              have ht0 := hT.1 hterm
              subst ht0
              cases hx2
              omega
            · exact fieldOK_len hf hterm
          refine ⟨f ++ x, e2, by rw [hx1]; simp, ?_, hx3, by simp only [List.length_append, List.length_cons]; omega⟩
          have := Layout.field (t := t) (o := src) (o' := src + f.length) (by omega) (by omega) hle
            (by rw [← hfe']; exact hf) (by
              intro hterm
              have h0 := ht hterm
              subst h0
              have ht0 := hT.1 hterm
              subst ht0
              cases hx2
              rfl) hx2
          rw [← hfe'] at this
          exact this
        · rw [hr] at h; simp at h
        · rw [hr, ok_bind, hT.1 hterm] at h
          simp [pFields] at h

theorem name_returns {mem : List UInt8} {p eop src b : Nat} {out : List UInt8} (hm : eop < mem.length)
    (hs : src < eop) (h64 : eop < 2 ^ 64) {t} (hN : IsName t) :
    (pField mem p eop t ⟨src, b, out⟩).Returns ∧
    ∀ st, pField mem p eop t ⟨src, b, out⟩ = ok st → st.src + st.bytes = src + b ∧ src ≤ st.src := by
  rw [pField_name hN]
  have hu := (C04_unpack_safe_partial maxlenName mem p eop src (by decide) hm).1
  obtain ⟨h1, h2⟩ := C07_skip_bounded mem src eop (by omega) h64
  obtain ⟨new, k, hk⟩ := h2 hm
  have h3 := h1 new k hk
  cases hcu : unpackName maxlenName mem p eop src with
  | ok r =>
    obtain ⟨nm, len⟩ := r
    simp only [hk, ok_bind]
    split
    · simp
    · simp; omega
  | err r => simp
  | _ => simp [hcu] at hu

theorem pFields_returns {mem : List UInt8} {p eop : Nat} (hm : eop < mem.length) (h64 : eop < 2 ^ 64) :
    ∀ {ts} {src b : Nat} {out : List UInt8}, TermLast ts → src + b ≤ eop → b < 65536 →
    ¬ LongIn (mem.take eop) (src + b) ts src →
    (pFields mem p eop ts ⟨src, b, out⟩).Returns := by
  intro ts
  induction ts with
  | nil => intro src b out _ _ _ _; simp [pFields]
  | cons t ts ih =>
    intro src b out hT hl hb hno
    simp only [pFields]
    by_cases hb0 : b = 0
    · simp [hb0]
    rw [if_neg hb0]
    by_cases hN : IsName t
    · obtain ⟨h1, h2⟩ := name_returns (p := p) (b := b) (out := out) hm (by omega : src < eop) h64 hN
      apply Returns.bind h1
      rintro ⟨s, b', o⟩ hst
      obtain ⟨n, _, _, _, h3, h4, h5, h6, _⟩ := name_step h64 hN hst
      simp only at h3 h4 h5 h6
      apply ih hT.2 (by omega) (by omega)
      intro hmem
      rcases h6 with h6 | h6
      · have := longIn_end hmem; omega
      · exact hno (.name hN h6 (by omega) (by rw [h3] at hmem; exact hmem))
    · have hw := Win.mk' (mem := mem) (o := src) (n := b) (by omega)
      have hwl := take_drop_length mem src b (by omega)
      have hst : ((mem.take eop).drop src).take b = (mem.drop src).take b := slice_congr (fun j _ _ => getElem?_take_lt (by omega))
      have hspec := pField_spec (p := p) (eop := eop) (out := out) hN hw
        (by intro h; rw [h] at hwl; simp at hwl; omega) (by rw [hwl]; exact hb)
        (by
          rintro rfl hL
          exact hno (.here (by rw [show src + b - src = b by omega, hst]; exact hL)))
      rw [hwl] at hspec
      rcases hspec with ⟨f, rest, e, hf, ht, hr⟩ | ⟨_, ⟨e, hr⟩ | ⟨hterm, s, o, hr⟩⟩
      · rw [hr, ok_bind]
        have el := congrArg List.length e
        rw [hwl, List.length_append] at el
        apply ih hT.2 (by omega) (by omega)
        intro hm
        rw [show src + f.length + rest.length = src + b by omega] at hm
        refine hno (.field hN (o' := src + f.length) (by omega) (by omega) ?_ hm)
        rw [show src + f.length - src = f.length by omega]
        have hfe := congrArg (List.take f.length) e
        rw [← hst, List.take_take, List.take_left, Nat.min_eq_left (by omega)] at hfe
        rw [hfe]; exact hf
      · rw [hr]; simp
      · rw [hr, ok_bind, hT.1 hterm]; simp [pFields]

theorem pFields_local {mem mem' : List UInt8} {p eop : Nat} (h : ∀ i, i ≤ eop → mem[i]? = mem'[i]?)
    (hm : eop < mem.length) (hm' : eop < mem'.length) (h64 : eop < 2 ^ 64) :
    ∀ {ts} {src b : Nat} {out : List UInt8}, TermLast ts → src + b ≤ eop → b < 65536 →
    ¬ LongIn (mem.take eop) (src + b) ts src →
    pFields mem p eop ts ⟨src, b, out⟩ = pFields mem' p eop ts ⟨src, b, out⟩ := by
  intro ts
  induction ts with
  | nil => intro src b out _ _ _ _; simp [pFields]
  | cons t ts ih =>
    intro src b out hT hl hb hno
    simp only [pFields]
    by_cases hb0 : b = 0
    · simp [hb0]
    rw [if_neg hb0, if_neg hb0]
    by_cases hN : IsName t
    · have e : pField mem' p eop t ⟨src, b, out⟩ = pField mem p eop t ⟨src, b, out⟩ := by
        rw [pField_name hN, pField_name hN]
        rw [(C04_unpack_safe_partial maxlenName mem p eop src (by decide) hm).2 mem' (by omega)
          (fun i _ hi => h i hi), skipName_local h]
      rw [e]
      obtain ⟨_, h2⟩ := name_returns (p := p) (b := b) (out := out) hm (by omega : src < eop) h64 hN
      cases hst : pField mem p eop t ⟨src, b, out⟩ with
      | ok st =>
        obtain ⟨s, b', o⟩ := st
        obtain ⟨n, _, _, _, h3, h4, h5, h6, _⟩ := name_step h64 hN hst
        simp only at h3 h4 h5 h6
        simp only [ok_bind]
        apply ih hT.2 (by omega) (by omega)
        intro hmem
        rcases h6 with h6 | h6
        · have := longIn_end hmem; omega
        · exact hno (.name hN h6 (by omega) (by rw [h3] at hmem; exact hmem))
      | _ => rfl
    · have hw := Win.mk' (mem := mem) (o := src) (n := b) (by omega)
      have hwl := take_drop_length mem src b (by omega)
      have hws : (mem.drop src).take b = (mem'.drop src).take b :=
        slice_congr (fun j _ _ => h j (by omega))
      have hw' : Win mem' src ((mem.drop src).take b) := by
        rw [hws]; exact Win.mk' (by omega)
      have hne : (mem.drop src).take b ≠ [] := by
        intro h; rw [h] at hwl; simp at hwl; omega
      have hst : ((mem.take eop).drop src).take b = (mem.drop src).take b := slice_congr (fun j _ _ => getElem?_take_lt (by omega))
      have hno1 : t = .svcparams → ¬ LongParam ((mem.drop src).take b) := by
        rintro rfl hL
        exact hno (.here (by rw [show src + b - src = b by omega, hst]; exact hL))
      have hspec := pField_spec (p := p) (eop := eop) (out := out) hN hw hne (by rw [hwl]; exact hb) hno1
      have hspec' := pField_spec (p := p) (eop := eop) (out := out) hN hw' hne (by rw [hwl]; exact hb) hno1
      rw [hwl] at hspec hspec'
      rcases hspec with ⟨f, rest, e, hf, ht, hr⟩ | ⟨hn, hr⟩
      · rcases hspec' with ⟨f', rest', e', hf', ht', hr'⟩ | ⟨hn', _⟩
        · obtain ⟨e1, e2⟩ := fieldOK_unique hf hf' ht ht' (e.symm.trans e')
          subst e1 e2
          rw [hr, hr']
          simp only [ok_bind]
          have el := congrArg List.length e
          rw [hwl, List.length_append] at el
          apply ih hT.2 (by omega) (by omega)
          intro hm
          rw [show src + f.length + rest.length = src + b by omega] at hm
          refine hno (.field hN (o' := src + f.length) (by omega) (by omega) ?_ hm)
          rw [show src + f.length - src = f.length by omega]
          have hfe := congrArg (List.take f.length) e
          rw [← hst, List.take_take, List.take_left, Nat.min_eq_left (by omega)] at hfe
          rw [hfe]; exact hf
        · exact absurd ⟨f, rest, e, hf, ht⟩ hn'
      · have hloc : pField mem p eop t ⟨src, b, out⟩ = pField mem' p eop t ⟨src, b, out⟩ := by
          have hrd : rd mem src = rd mem' src := rd_local h (by omega)
          have hcp := fun x => pCopy_local h (by omega) (by omega) ⟨src, b, out⟩ hl x
          cases t <;> simp only [pField, hrd, hcp]
          case name => exact absurd trivial hN
          case uname => exact absurd trivial hN
          case repstring => exact pRepstring_local h (by omega) (by omega) _ _ hl
          case typeBitmap => exact pBitmap_local h (by omega) (by omega) _ _ hl
          case svcparams =>
            exact pSvcparams_local h (by omega) (by omega) _ _ hl (hno1 rfl)
        rw [hloc]
        rcases hr with ⟨e, hr⟩ | ⟨hterm, s, o, hr⟩
        · rw [← hloc, hr]; rfl
        · rw [← hloc, hr, hT.1 hterm]; rfl

end Wdns
