import Verif.Lemmas.Message

/-! Helper lemmas: message parsing returns, terminates, and depends only on the packet. -/

namespace Wdns
open Outcome Spec

theorem parseRdata_returns {mem : List UInt8} {p eop o rdlen ty cls : Nat} (hm : eop < mem.length)
    (h64 : eop < 2 ^ 64) (hfit : o + rdlen ≤ eop) (hl : rdlen < 65536)
    (hsvc : ty = 64 ∨ ty = 65 → cls = 1 → ¬ LongSvc (mem.take eop) o rdlen) :
    (parseRdata mem p eop o rdlen ty cls).Returns := by
  by_cases hop : Opaque ty cls
  · have hwl := take_drop_length mem o rdlen (by omega)
    have := parseRdata_opaque (p := p) (eop := eop) hop (Win.mk' (mem := mem) (o := o) (n := rdlen) (by omega))
      (by rw [hwl]; exact hl)
    rw [hwl] at this
    rw [this]; simp
  · unfold Opaque at hop
    simp only [not_forall, Bool.not_eq_false] at hop
    obtain ⟨d, hd, ha⟩ := hop
    have hf := descr_facts hd
    rw [parseRdata_known hd ha]
    apply Returns.bind
    · exact pFields_returns hm h64 hf.1 hfit hl (no_longIn hd ha hsvc)
    · intro st _; split <;> simp

theorem parseRdata_local {mem mem' : List UInt8} {p eop o rdlen ty cls : Nat}
    (h : ∀ i, i ≤ eop → mem[i]? = mem'[i]?) (hm : eop < mem.length) (hm' : eop < mem'.length)
    (h64 : eop < 2 ^ 64) (hfit : o + rdlen ≤ eop) (hl : rdlen < 65536)
    (hsvc : ty = 64 ∨ ty = 65 → cls = 1 → ¬ LongSvc (mem.take eop) o rdlen) :
    parseRdata mem p eop o rdlen ty cls = parseRdata mem' p eop o rdlen ty cls := by
  by_cases hop : Opaque ty cls
  · have hwl := take_drop_length mem o rdlen (by omega)
    have hwl' := take_drop_length mem' o rdlen (by omega)
    have e1 := parseRdata_opaque (p := p) (eop := eop) hop (Win.mk' (mem := mem) (o := o) (n := rdlen) (by omega))
      (by rw [hwl]; exact hl)
    have e2 := parseRdata_opaque (p := p) (eop := eop) hop (Win.mk' (mem := mem') (o := o) (n := rdlen) (by omega))
      (by rw [hwl']; exact hl)
    rw [hwl] at e1
    rw [hwl'] at e2
    rw [e1, e2, slice_congr (m' := mem') (fun j _ _ => h j (by omega))]
  · unfold Opaque at hop
    simp only [not_forall, Bool.not_eq_false] at hop
    obtain ⟨d, hd, ha⟩ := hop
    have hf := descr_facts hd
    rw [parseRdata_known hd ha, parseRdata_known hd ha,
      pFields_local h hm hm' h64 hf.1 hfit hl (no_longIn hd ha hsvc)]

/-- Where the name of a record ends when there is room behind it in the packet. -/
theorem rr_end {mem : List UInt8} {eop o e k len : Nat} {nm : List UInt8} (h64 : eop < 2 ^ 64)
    (hu : unpackName maxlenName mem 0 eop o = ok (nm, len)) (hs : skipName mem o eop = ok (e, k)) (he : e + 4 ≤ eop) :
    EncEnd (mem.take eop) o e := by
  obtain ⟨_, h2, n, e', _, _, _, _, he1, he2, he3, he4⟩ := unpack_skip h64 hu hs
  have hse : e = e' := by omega
  subst hse
  exact encEnd_shrink he1 (by omega)

theorem parseMessageRr_returns {sec : Nat} {mem : List UInt8} {eop o : Nat} (hm : eop < mem.length)
    (h64 : eop < 2 ^ 64) (hno : sec ≠ 0 → RecNoLong (mem.take eop) o) : (parseMessageRr sec mem 0 eop o).Returns := by
  have hu := (C04_unpack_safe_partial maxlenName mem 0 eop o (by decide) hm).1
  cases hcu : unpackName maxlenName mem 0 eop o with
  | ok v =>
    obtain ⟨nm, len⟩ := v
    have hb : o < eop := by
      unfold unpackName at hcu
      split at hcu
      · simp at hcu
      · omega
    obtain ⟨e, k, hk⟩ := (C07_skip_bounded mem o eop (by omega) h64).2 hm
    rw [parseMessageRr_eq hcu hk (by omega)]
    split
    · simp
    · split
      · simp
      · split
        · simp
        · apply Returns.bind
          · apply parseRdata_returns hm h64 (by omega) (u16At_lt _ _)
            intro hs hc
            rename_i h1 h2 _
            have := hno h2 e (rr_end h64 hcu hk (by omega)) (by rw [u16At_take (by omega)]; exact hs) (by rw [u16At_take (by omega)]; exact hc)
            rwa [u16At_take (by omega)] at this
          · intro r _; simp
  | err r => unfold parseMessageRr; rw [hcu]; simp
  | _ => simp [hcu] at hu

theorem parseMessageRr_local {sec : Nat} {mem mem' : List UInt8} {eop o : Nat}
    (h : ∀ i, i ≤ eop → mem[i]? = mem'[i]?) (hm : eop < mem.length) (hm' : eop < mem'.length)
    (h64 : eop < 2 ^ 64) (hno : sec ≠ 0 → RecNoLong (mem.take eop) o) :
    parseMessageRr sec mem 0 eop o = parseMessageRr sec mem' 0 eop o := by
  have hu := (C04_unpack_safe_partial maxlenName mem 0 eop o (by decide) hm).2 mem' (by omega)
    (fun i _ hi => h i hi)
  cases hcu : unpackName maxlenName mem 0 eop o with
  | ok v =>
    obtain ⟨nm, len⟩ := v
    have hcu' := hu.trans hcu
    have hb : o < eop := by
      unfold unpackName at hcu
      split at hcu
      · simp at hcu
      · omega
    obtain ⟨e, k, hk⟩ := (C07_skip_bounded mem o eop (by omega) h64).2 hm
    have hk' : skipName mem' o eop = ok (e, k) := by rw [← skipName_local h]; exact hk
    rw [parseMessageRr_eq hcu hk (by omega), parseMessageRr_eq hcu' hk' (by omega)]
    by_cases h1 : e + 4 > eop ∨ (sec ≠ 0 ∧ e + 10 > eop)
    · simp only [h1, if_true]
    · have hg : ∀ i, i < eop → mem.getD i 0 = mem'.getD i 0 := by
        intro i hi; simp [List.getD, h i (by omega)]
      have h16 : ∀ i, i + 1 < eop → u16At mem i = u16At mem' i := by
        intro i hi; unfold u16At; rw [hg _ (by omega), hg _ (by omega)]
      have h32 : ∀ i, i + 3 < eop → u32At mem i = u32At mem' i := by
        intro i hi; unfold u32At
        rw [hg _ (by omega), hg _ (by omega), hg _ (by omega), hg _ (by omega)]
      simp only [h1, if_false]
      rw [← h16 e (by omega), ← h16 (e + 2) (by omega)]
      by_cases h2 : sec = 0
      · simp only [h2, if_true]
      · simp only [h2, if_false]
        rw [← h16 (e + 8) (by omega), ← h32 (e + 4) (by omega)]
        by_cases h3 : e + 10 + u16At mem (e + 8) > eop
        · simp only [h3, if_true]
        · simp only [h3, if_false]
          rw [parseRdata_local h hm hm' h64 (by omega) (u16At_lt _ _)]
          intro hs hc
          have := hno h2 e (rr_end h64 hcu hk (by omega)) (by rw [u16At_take (by omega)]; exact hs) (by rw [u16At_take (by omega)]; exact hc)
          rwa [u16At_take (by omega)] at this
  | _ =>
    have hcu2 := hu.trans hcu
    unfold parseMessageRr
    rw [hcu, hcu2]
    simp only [err_bind, ub_bind, hang_bind, abort_bind]

theorem parseSection_local {sec : Nat} {mem mem' : List UInt8} {len : Nat} (hm : len ≤ mem.length) (h64 : len < 2 ^ 64)
    (h : ∀ o, (sec ≠ 0 → RecNoLong (mem.take len) o) → parseMessageRr sec mem 0 len o = parseMessageRr sec mem' 0 len o) :
    ∀ n st, (∀ j < n, ∀ o, Walk (mem.take len) (sec = 0) j st.p o → sec ≠ 0 → RecNoLong (mem.take len) o) →
      parseSection sec mem len n st = parseSection sec mem' len n st := by
  intro n
  induction n with
  | zero => intro st _; rfl
  | succ n ih =>
    intro st hc
    simp only [parseSection]
    split
    · rfl
    · rw [← h st.p (hc 0 (by omega) _ .zero)]
      cases hr : parseMessageRr sec mem 0 len st.p with
      | ok v =>
        obtain ⟨rr, sz⟩ := v
        obtain ⟨e, he, _, _, _, hsz⟩ := parseMessageRr_step hm h64 hr
        have hw : ∀ j < n, ∀ o, Walk (mem.take len) (sec = 0) j (st.p + sz) o → sec ≠ 0 → RecNoLong (mem.take len) o := by
          intro j hj o hw
          refine hc (j + 1) (by omega) o (.succ he ?_)
          simp only [decide_eq_true_eq]; rw [← hsz]; exact hw
        simp only [ok_bind]
        split
        · exact ih _ hw
        · cases insertRr st.arr rr sec <;> simp only [ok_bind, err_bind, ub_bind, hang_bind, abort_bind]
          exact ih _ hw
      | _ => simp only [err_bind, ub_bind, hang_bind, abort_bind]

theorem parseSection_walk {sec : Nat} {mem : List UInt8} {len : Nat} (hm : len ≤ mem.length) (h64 : len < 2 ^ 64) :
    ∀ n st st', parseSection sec mem len n st = ok (st', false) → Walk (mem.take len) (sec = 0) n st.p st'.p := by
  intro n
  induction n with
  | zero =>
    intro st st' h
    simp only [parseSection, ok.injEq, Prod.mk.injEq, and_true] at h
    subst h; exact .zero
  | succ n ih =>
    intro st st' h
    simp only [parseSection] at h
    split at h
    · simp at h
    · obtain ⟨⟨rr, sz⟩, hr, h⟩ := bind_eq_ok.mp h
      obtain ⟨e, he, _, _, _, hsz⟩ := parseMessageRr_step hm h64 hr
      have key : Walk (mem.take len) (sec = 0) n (st.p + sz) st'.p := by
        simp only at h
        split at h
        · exact ih _ _ h
        · obtain ⟨arr, _, h⟩ := bind_eq_ok.mp h
          exact ih _ _ h
      refine .succ he ?_
      simp only [decide_eq_true_eq]; rw [← hsz]; exact key

theorem parseSections_local {mem mem' : List UInt8} {len : Nat} (hm : len ≤ mem.length) (h64 : len < 2 ^ 64)
    (h : ∀ sec o, (sec ≠ 0 → RecNoLong (mem.take len) o) → parseMessageRr sec mem 0 len o = parseMessageRr sec mem' 0 len o) :
    ∀ secs p hdr done, CleanFrom (mem.take len) secs p →
      parseSections mem len secs p hdr done = parseSections mem' len secs p hdr done := by
  intro secs
  induction secs with
  | nil => intros; rfl
  | cons s secs ih =>
    intro p hdr done hc
    obtain ⟨sec, c⟩ := s
    simp only [parseSections]
    rw [← parseSection_local hm h64 (h sec) c ⟨p, .empty, hdr⟩ hc.1]
    cases hr : parseSection sec mem len c ⟨p, .empty, hdr⟩ with
    | ok v =>
      obtain ⟨st, r⟩ := v
      simp only [ok_bind]
      cases r with
      | true => simp only [if_true]
      | false => exact ih _ _ _ (hc.2 _ (parseSection_walk hm h64 _ _ _ hr))
    | _ => simp only [err_bind, ub_bind, hang_bind, abort_bind]

theorem readSec_returns {sec : Nat} {mem : List UInt8} {len : Nat} (hm : len ≤ mem.length) (h64 : len < 2 ^ 64)
    (h : ∀ o, (sec ≠ 0 → RecNoLong (mem.take len) o) → (parseMessageRr sec mem 0 len o).Returns) : ∀ n p,
    (∀ j < n, ∀ o, Walk (mem.take len) (sec = 0) j p o → sec ≠ 0 → RecNoLong (mem.take len) o) → (readSec sec mem len n p).Returns := by
  intro n
  induction n with
  | zero => intro p _; simp [readSec]
  | succ n ih =>
    intro p hc
    simp only [readSec]
    split
    · simp
    · apply Returns.bind (h _ (hc 0 (by omega) _ .zero))
      rintro ⟨rr, sz⟩ hr
      obtain ⟨e, he, _, _, _, hsz⟩ := parseMessageRr_step hm h64 hr
      apply Returns.bind (ih _ ?_)
      · intro b _; simp
      · intro j hj o hw
        refine hc (j + 1) (by omega) o (.succ he ?_)
        simp only [decide_eq_true_eq]; rw [← hsz]; exact hw

theorem readAll_returns {mem : List UInt8} {len : Nat} (hm : len ≤ mem.length) (h64 : len < 2 ^ 64)
    (h : ∀ sec o, (sec ≠ 0 → RecNoLong (mem.take len) o) → (parseMessageRr sec mem 0 len o).Returns) : ∀ secs p,
    CleanFrom (mem.take len) secs p → (readAll mem len secs p).Returns := by
  intro secs
  induction secs with
  | nil => intro p _; simp [readAll]
  | cons s secs ih =>
    intro p hc
    obtain ⟨sec, c⟩ := s
    simp only [readAll]
    apply Returns.bind (readSec_returns hm h64 (h sec) _ _ hc.1)
    intro a ha
    apply Returns.bind (ih _ (cleanFrom_next hm h64 hc ha))
    intro b _; simp

/-! ### termination -/

theorem bind_ne_hang {α β} {x : Outcome α} {f : α → Outcome β} (hx : x ≠ hang) (hf : ∀ a, x = ok a → f a ≠ hang) :
    (x >>= f) ≠ hang := by cases x <;> simp_all

theorem rd_ne_hang (mem : List UInt8) (i : Nat) : rd mem i ≠ hang := by
  unfold rd; split <;> simp

theorem pCopy_ne_hang (mem : List UInt8) (st : PState) (x : Nat) : pCopy mem st x ≠ hang := by
  unfold pCopy rdN
  split
  · simp
  · split <;> simp

theorem pCopy_bytes {mem : List UInt8} {st st' : PState} {x : Nat} (h : pCopy mem st x = ok st') :
    st'.bytes = st.bytes - x ∧ x ≤ st.bytes := by
  unfold pCopy at h
  split at h
  · simp at h
  · obtain ⟨b, _, h⟩ := bind_eq_ok.mp h
    simp only [ok.injEq] at h
    subst h; simp; omega

theorem alpnLoop_ne_hang {mem : List UInt8} {val valLen : Nat} : ∀ fuel i, valLen < fuel + i →
    0 < fuel → alpnLoop mem val valLen fuel i ≠ hang := by
  intro fuel
  induction fuel with
  | zero => intro i h h0; omega
  | succ fuel ih =>
    intro i h _
    simp only [alpnLoop]
    split
    · apply bind_ne_hang (rd_ne_hang _ _)
      intro a _
      by_cases hf : fuel = 0
      · subst hf; omega
      · exact ih _ (by omega) (by omega)
    · simp

theorem svcparamKeyValidate_ne_hang (mem : List UInt8) (key valLen val : Nat) :
    svcparamKeyValidate mem key valLen val ≠ hang := by
  unfold svcparamKeyValidate
  split
  · simp
  split
  · split
    · simp
    · apply bind_ne_hang (alpnLoop_ne_hang _ _ (by omega) (by omega))
      intro a _; simp
  all_goals (repeat' split) <;> simp

theorem pRepstring_ne_hang {mem : List UInt8} : ∀ fuel st, st.bytes < fuel → pRepstring mem fuel st ≠ hang := by
  intro fuel
  induction fuel with
  | zero => intro st h; omega
  | succ fuel ih =>
    intro st h
    simp only [pRepstring]
    split
    · apply bind_ne_hang (rd_ne_hang _ _)
      intro a _
      apply bind_ne_hang (pCopy_ne_hang _ _ _)
      intro st' hst
      have := pCopy_bytes hst
      exact ih _ (by omega)
    · simp

theorem pBitmap_ne_hang {mem : List UInt8} : ∀ fuel st, st.bytes < fuel → pBitmap mem fuel st ≠ hang := by
  intro fuel
  induction fuel with
  | zero => intro st h; omega
  | succ fuel ih =>
    intro st h
    simp only [pBitmap]
    split
    · apply bind_ne_hang (rd_ne_hang _ _)
      intro a _
      split
      · simp
      · split
        · apply bind_ne_hang (pCopy_ne_hang _ _ _)
          intro st' hst
          have := pCopy_bytes hst
          exact ih _ (by omega)
        · simp
    · simp

theorem skipName_ne_hang (mem : List UInt8) (o eop : Nat) : skipName mem o eop ≠ hang := by
  unfold skipName
  rcases skipLoop_spec (mem := mem) (eod := eop) (eop + 2) o (by omega) (by omega) with ⟨e, h, _⟩ | ⟨h, _⟩ <;>
    simp [h]

theorem pField_ne_hang {mem : List UInt8} {p eop : Nat} {t : Rdf} {st : PState} (hw : st.src + st.bytes ≤ mem.length) (hb : st.bytes < 65536)
    (hno : t = .svcparams → ¬ LongParam ((mem.drop st.src).take st.bytes)) : pField mem p eop t st ≠ hang := by
  cases t <;> simp only [pField]
  case name =>
    apply bind_ne_hang (C03_unpack_terminates _ _ _ _ _).1
    intro a _
    apply bind_ne_hang (skipName_ne_hang _ _ _)
    intro b _
    split <;> simp
  case uname =>
    apply bind_ne_hang (C03_unpack_terminates _ _ _ _ _).1
    intro a _
    apply bind_ne_hang (skipName_ne_hang _ _ _)
    intro b _
    split <;> simp
  case repstring => exact pRepstring_ne_hang _ _ (by omega)
  case typeBitmap => exact pBitmap_ne_hang _ _ (by omega)
  case svcparams =>
    have hl := take_drop_length mem st.src st.bytes hw
    have := pSvcparams_spec (mem := mem) (st.bytes + 1) _ st.src st.out (by rw [hl]; omega) (Win.mk' hw) (by rw [hl]; exact hb) (hno rfl)
    rw [hl] at this
    rcases this with ⟨_, h⟩ | ⟨_, r, h⟩
    · intro hh; rw [h] at hh; simp at hh
    · intro hh; rw [h] at hh; simp at hh
  case ipv6prefix =>
    apply bind_ne_hang (rd_ne_hang _ _)
    intro a _
    split
    · simp
    · exact pCopy_ne_hang _ _ _
  case string => exact bind_ne_hang (rd_ne_hang _ _) (fun a _ => pCopy_ne_hang _ _ _)
  case salt => exact bind_ne_hang (rd_ne_hang _ _) (fun a _ => pCopy_ne_hang _ _ _)
  case hash => exact bind_ne_hang (rd_ne_hang _ _) (fun a _ => pCopy_ne_hang _ _ _)
  all_goals exact pCopy_ne_hang _ _ _

theorem pFields_ne_hang {mem : List UInt8} {p eop : Nat} (hm : eop ≤ mem.length) (h64 : eop < 2 ^ 64) :
    ∀ {ts} {src b : Nat} {out : List UInt8}, TermLast ts → src + b ≤ eop → b < 65536 →
    ¬ LongIn (mem.take eop) (src + b) ts src →
    pFields mem p eop ts ⟨src, b, out⟩ ≠ hang := by
  intro ts
  induction ts with
  | nil => intro src b out _ _ _ _; simp [pFields]
  | cons t ts ih =>
    intro src b out hT hl hb hno
    simp only [pFields]
    by_cases hb0 : b = 0
    · simp [hb0]
    rw [if_neg hb0]
    have hst : ((mem.take eop).drop src).take b = (mem.drop src).take b := slice_congr (fun j _ _ => getElem?_take_lt (by omega))
    have hsvc : t = .svcparams → ¬ LongParam ((mem.drop src).take b) := by
      rintro rfl hL
      exact hno (.here (by rw [show src + b - src = b by omega, hst]; exact hL))
    by_cases hN : IsName t
    · refine bind_ne_hang (pField_ne_hang (by simp only; omega) hb hsvc) ?_
      rintro ⟨s, b', o⟩ hst
      obtain ⟨n, _, _, _, h3, h4, h5, h6, _⟩ := name_step h64 hN hst
      simp only at h3 h4 h5 h6
      apply ih hT.2 (by omega) (by omega)
      intro hmem
      rcases h6 with h6 | h6
      · have := longIn_end hmem; omega
      · exact hno (.name hN h6 (by omega) (by rw [h3] at hmem; exact hmem))
    · have hw := Win.mk' (mem := mem) (o := src) (n := b) (by omega)
      have hwl := take_drop_length mem src b (by omega)
      have hspec := pField_spec (p := p) (eop := eop) (out := out) hN hw
        (by intro h; rw [h] at hwl; simp at hwl; omega) (by rw [hwl]; exact hb) hsvc
      rw [hwl] at hspec
      rcases hspec with ⟨f, rest, e, hf, ht, hr⟩ | ⟨_, ⟨e, hr⟩ | ⟨hterm, s, o, hr⟩⟩
      · rw [hr, ok_bind]
        have el := congrArg List.length e
        rw [hwl, List.length_append] at el
        apply ih hT.2 (by omega) (by omega)
        intro hm
        rw [show src + f.length + rest.length = src + b by omega] at hm
        refine hno (.field hN (o' := src + f.length) (by omega) (by omega) ?_ hm)
        rw [show src + f.length - src = f.length by omega]
        have hfe := congrArg (List.take f.length) e
        rw [← hst, List.take_take, List.take_left, Nat.min_eq_left (by omega)] at hfe
        rw [hfe]; exact hf
      · rw [hr]; simp
      · rw [hr, ok_bind, hT.1 hterm]; simp [pFields]

theorem svcparams_types {ty : Nat} {d : Descr} (h : recordDescr ty = some d) (hs : Rdf.svcparams ∈ d.types) :
    ty = 64 ∨ ty = 65 := by
  have hall : ∀ ty < 258, ∀ d ∈ recordDescr ty, Rdf.svcparams ∈ d.types → ty = 64 ∨ ty = 65 := by decide +kernel
  exact hall ty (recordDescr_lt h) d h hs

theorem parseRdata_ne_hang {mem : List UInt8} {p eop o rdlen ty cls : Nat} (hm : eop ≤ mem.length)
    (h64 : eop < 2 ^ 64) (hfit : o + rdlen ≤ eop) (hl : rdlen < 65536)
    (hsvc : ty = 64 ∨ ty = 65 → cls = 1 → ¬ LongSvc (mem.take eop) o rdlen) : parseRdata mem p eop o rdlen ty cls ≠ hang := by
  by_cases hop : Opaque ty cls
  · have hwl := take_drop_length mem o rdlen (by omega)
    have := parseRdata_opaque (p := p) (eop := eop) hop (Win.mk' (mem := mem) (o := o) (n := rdlen) (by omega))
      (by rw [hwl]; exact hl)
    rw [hwl] at this
    rw [this]; simp
  · unfold Opaque at hop
    simp only [not_forall, Bool.not_eq_false] at hop
    obtain ⟨d, hd, ha⟩ := hop
    have hf := descr_facts hd
    rw [parseRdata_known hd ha]
    apply bind_ne_hang
    · exact pFields_ne_hang hm h64 hf.1 hfit hl (no_longIn hd ha hsvc)
    · intro st _; split <;> simp

theorem u16At_of_rd {mem : List UInt8} {e : Nat} {a b : UInt8} (h0 : rd mem e = ok a) (h1 : rd mem (e + 1) = ok b) :
    u16At mem e = be16 a b := by
  simp [u16At, List.getD, rd_ok.mp h0, rd_ok.mp h1]

theorem parseMessageRr_ne_hang {sec : Nat} {mem : List UInt8} {eop o : Nat} (hm : eop ≤ mem.length)
    (h64 : eop < 2 ^ 64) (hno : sec ≠ 0 → RecNoLong (mem.take eop) o) : parseMessageRr sec mem 0 eop o ≠ hang := by
  have hu := (C03_unpack_terminates maxlenName mem 0 eop o).1
  cases hcu : unpackName maxlenName mem 0 eop o with
  | ok v =>
    obtain ⟨nm, len⟩ := v
    cases hk : skipName mem o eop with
    | ok w =>
      obtain ⟨e, k⟩ := w
      rw [parseMessageRr_eq hcu hk hm]
      split
      · simp
      · split
        · simp
        · split
          · simp
          · apply bind_ne_hang
            · apply parseRdata_ne_hang hm h64 (by omega) (u16At_lt _ _)
              intro hs hc
              rename_i h1 h2 _
              have := hno h2 e (rr_end h64 hcu hk (by omega)) (by rw [u16At_take (by omega)]; exact hs) (by rw [u16At_take (by omega)]; exact hc)
              rwa [u16At_take (by omega)] at this
            · intro r _; simp
    | hang => exact absurd hk (skipName_ne_hang _ _ _)
    | _ => unfold parseMessageRr; rw [hcu]; simp [hk]
  | hang => exact absurd hcu hu
  | _ => unfold parseMessageRr; rw [hcu]; simp

theorem readSec_ne_hang {sec : Nat} {mem : List UInt8} {len : Nat} (hm : len ≤ mem.length) (h64 : len < 2 ^ 64) : ∀ n p,
    (∀ j < n, ∀ o, Walk (mem.take len) (sec = 0) j p o → sec ≠ 0 → RecNoLong (mem.take len) o) → readSec sec mem len n p ≠ hang := by
  intro n
  induction n with
  | zero => intro p _; simp [readSec]
  | succ n ih =>
    intro p hc
    simp only [readSec]
    split
    · simp
    · apply bind_ne_hang (parseMessageRr_ne_hang hm h64 (hc 0 (by omega) _ .zero))
      rintro ⟨rr, sz⟩ hr
      obtain ⟨e, he, _, _, _, hsz⟩ := parseMessageRr_step hm h64 hr
      apply bind_ne_hang (ih _ ?_)
      · intro b _; simp
      · intro j hj o hw
        refine hc (j + 1) (by omega) o (.succ he ?_)
        simp only [decide_eq_true_eq]; rw [← hsz]; exact hw

theorem readAll_ne_hang {mem : List UInt8} {len : Nat} (hm : len ≤ mem.length) (h64 : len < 2 ^ 64) : ∀ secs p,
    CleanFrom (mem.take len) secs p → readAll mem len secs p ≠ hang := by
  intro secs
  induction secs with
  | nil => intro p _; simp [readAll]
  | cons s secs ih =>
    intro p hc
    obtain ⟨sec, c⟩ := s
    simp only [readAll]
    apply bind_ne_hang (readSec_ne_hang hm h64 _ _ hc.1)
    intro a ha
    apply bind_ne_hang (ih _ (cleanFrom_next hm h64 hc ha))
    intro b _; simp

end Wdns
