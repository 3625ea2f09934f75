import Verif.Lemmas.ToTextFields

/-! Helper lemmas: whatever the rdata, only printable characters are written. -/

namespace Wdns
open Outcome Spec

/-- Whenever there is a result it satisfies `P`. -/
def Outcome.Ens {α : Type} (o : Outcome α) (P : α → Prop) : Prop := ∀ a, o = ok a → P a

theorem Outcome.Ens.ok {α : Type} {P : α → Prop} {a : α} (h : P a) : (Outcome.ok a).Ens P := by
  intro b hb; cases hb; exact h
theorem Outcome.Ens.err {α : Type} {P : α → Prop} {r : Res} : (Outcome.err r : Outcome α).Ens P := by intro b hb; cases hb
theorem Outcome.Ens.ub {α : Type} {P : α → Prop} : (Outcome.ub : Outcome α).Ens P := by intro b hb; cases hb
theorem Outcome.Ens.hang {α : Type} {P : α → Prop} : (Outcome.hang : Outcome α).Ens P := by intro b hb; cases hb
theorem Outcome.Ens.abort {α : Type} {P : α → Prop} : (Outcome.abort : Outcome α).Ens P := by intro b hb; cases hb
theorem Outcome.Ens.bind {α β : Type} {o : Outcome α} {f : α → Outcome β} {P : α → Prop} {Q : β → Prop} (h : o.Ens P)
    (hf : ∀ a, P a → (f a).Ens Q) : (o >>= f).Ens Q := by
  intro b hb
  obtain ⟨a, ha, hb⟩ := bind_eq_ok.mp hb
  exact hf a (h a ha) b hb
theorem Outcome.Ens.bind' {α β : Type} {o : Outcome α} {f : α → Outcome β} {Q : β → Prop} (hf : ∀ a, (f a).Ens Q) : (o >>= f).Ens Q :=
  Outcome.Ens.bind (P := fun _ => True) (fun _ _ => trivial) fun a _ => hf a
theorem Outcome.Ens.ite {α : Type} {c : Prop} [Decidable c] {a b : Outcome α} {P : α → Prop} (ha : c → a.Ens P) (hb : ¬ c → b.Ens P) :
    (if c then a else b).Ens P := by
  split
  · exact ha ‹_›
  · exact hb ‹_›
theorem Outcome.Ens.mono {α : Type} {o : Outcome α} {P Q : α → Prop} (h : o.Ens P) (hpq : ∀ a, P a → Q a) : o.Ens Q :=
  fun a ha => hpq a (h a ha)

/-- Printable characters, and newlines if `nl`. -/
def Txt (nl : Bool) (t : List UInt8) : Prop := ∀ b ∈ t, (32 ≤ b.toNat ∧ b.toNat ≤ 126) ∨ (nl = true ∧ b = 10)

theorem Txt.append {nl a b} (h : Txt nl a) (h' : Txt nl b) : Txt nl (a ++ b) := by
  intro x hx
  rcases List.mem_append.mp hx with hx | hx
  · exact h x hx
  · exact h' x hx

theorem Spec.Printable.txt {nl t} (h : Printable t) : Txt nl t := fun b hb => Or.inl (h b hb)

theorem clean_txt {u nl s} (h : Clean u) (hs : Txt nl s) : Clean (u ++ s) := by
  unfold Clean at *
  rw [List.getLast?_append]
  cases hl : s.getLast? with
  | none => simpa using h
  | some x =>
    have := hs x (List.mem_of_getLast? hl)
    simp only [Option.some_or, ne_eq, Option.some.injEq]
    intro hx
    subst hx
    simp at this

/-- `u'` is `u` with text appended. -/
def Ext (nl : Bool) (u u' : List UInt8) : Prop := ∃ t, u' = u ++ t ∧ Txt nl t

theorem Ext.refl {nl u} : Ext nl u u := ⟨[], by simp, by intro b hb; simp at hb⟩
theorem Ext.trans {nl a b c} (h : Ext nl a b) (h' : Ext nl b c) : Ext nl a c := by
  obtain ⟨t, rfl, ht⟩ := h
  obtain ⟨t', rfl, ht'⟩ := h'
  exact ⟨t ++ t', by simp, ht.append ht'⟩
theorem Ext.clean {nl a b} (h : Ext nl a b) (ha : Clean a) : Clean b := by
  obtain ⟨t, rfl, ht⟩ := h
  exact clean_txt ha ht
theorem Ext.app {nl a b t} (h : Ext nl a b) (ht : Printable t) : Ext nl a (b ++ t) := h.trans ⟨t, rfl, ht.txt⟩
theorem Ext.cstr {nl a b t} (h : Ext nl a b) (ha : Clean a) (ht : Printable t) : Ext nl a (uAddCstr b t) := by
  rw [uAddCstr_clean (h.clean ha)]; exact h.app ht

/-! ### SvcParam values -/

theorem svcMandatory_ext {nl} (v : List UInt8) : ∀ {u}, Clean u → Ext nl u (svcMandatory v u).1 := by
  fun_induction words16 v with
  | case1 a b rest ih =>
    intro u hu
    unfold svcMandatory
    simp only
    rw [keyText_eq]
    have h1 : Ext nl u (uAddCstr u (mandName (be16 a b)) ++ [if rest = [] then 32 else 44]) := by
      refine (Ext.cstr .refl hu (printable_mandName _)).app ?_
      split <;> decide
    exact h1.trans (ih (h1.clean hu))
  | case2 v hv =>
    intro u hu
    match v, hv with
    | [], _ => exact .refl
    | [x], _ => exact .refl
    | x :: y :: r, hv => exact absurd rfl (hv x y r)

theorem inet4Ntop_ens (v : List UInt8) (n : Nat) (h : 16 ≤ n) : (inet4Ntop v n).Ens fun o => ∀ t, o = some t → Printable t := by
  by_cases hv : 4 ≤ v.length
  · rw [inet4Ntop_quad hv h]
    refine .ok ?_
    intro t ht
    cases ht
    exact printable_quadText _
  · unfold inet4Ntop
    have : rdN v 0 4 = ub := by
      unfold rdN
      rw [if_neg (by omega)]
    rw [this, if_neg (by omega)]
    exact .ub

theorem inet6Ntop_ens (v : List UInt8) (n : Nat) (h : 46 ≤ n) : (inet6Ntop v n).Ens fun o => ∀ t, o = some t → Printable t := by
  by_cases hv : 16 ≤ v.length
  · rw [inet6Ntop_ip6 hv h]
    refine .ok ?_
    intro t ht
    cases ht
    exact printable_ip6Text _
  · unfold inet6Ntop
    have : rdN v 0 16 = ub := by
      unfold rdN
      rw [if_neg (by omega)]
    rw [this, if_neg (by omega)]
    exact .ub

theorem sep_printable (p : Prop) [Decidable p] (x y : UInt8) (hx : Printable [x]) (hy : Printable [y]) : Printable [if p then x else y] := by
  split <;> assumption

theorem svcIp4_ext {nl} (fuel : Nat) : ∀ {v u}, Clean u → (svcIp4 fuel v u).Ens fun p => Ext nl u p.1 := by
  induction fuel with
  | zero => intro v u _; exact .hang
  | succ fuel ih =>
    intro v u hu
    rw [svcIp4]
    refine .ite (fun _ => .ok .refl) fun _ => .ite (fun _ => .ok .refl) fun _ => .bind (inet4Ntop_ens v 16 (by omega)) fun o ho => ?_
    cases o with
    | none => exact .ok .refl
    | some t =>
      have h1 : Ext nl u (uAddCstr u t ++ [if v.drop 4 = [] then 32 else 44]) :=
        (Ext.cstr .refl hu (ho t rfl)).app (sep_printable _ _ _ (by decide) (by decide))
      exact (ih (h1.clean hu)).mono fun p hp => h1.trans hp

theorem svcIp6_ext {nl} (fuel : Nat) : ∀ {v u}, Clean u → (svcIp6 fuel v u).Ens fun p => Ext nl u p.1 := by
  induction fuel with
  | zero => intro v u _; exact .hang
  | succ fuel ih =>
    intro v u hu
    rw [svcIp6]
    refine .ite (fun _ => .ok .refl) fun _ => .ite (fun _ => .ok .refl) fun _ => .bind (inet6Ntop_ens v 46 (by omega)) fun o ho => ?_
    cases o with
    | none => exact .ok .refl
    | some t =>
      have h1 : Ext nl u (uAddCstr u t ++ [if v.drop 16 = [] then 32 else 44]) :=
        (Ext.cstr .refl hu (ho t rfl)).app (sep_printable _ _ _ (by decide) (by decide))
      exact (ih (h1.clean hu)).mono fun p hp => h1.trans hp

theorem printable_chars (s : List UInt8) : Printable (s.flatMap charText) := Printable.flatMap fun c _ => printable_charText c

theorem svcAlpn_ext {nl} (fuel : Nat) : ∀ {v u}, Clean u → (svcAlpn fuel v u).Ens fun p => Ext nl u p.1 := by
  induction fuel with
  | zero => intro v u _; exact .hang
  | succ fuel ih =>
    intro v u hu
    cases v with
    | nil => exact .ok .refl
    | cons l v =>
      rw [svcAlpn]
      refine .ite (fun _ => .ok .refl) fun _ => ?_
      rw [alpnId_eq, ok_bind]
      have h1 : Ext nl u (u ++ (listItem (v.take l.toNat)).flatMap charText ++ [if v.drop l.toNat = [] then 34 else 44]) :=
        (Ext.app .refl (printable_chars _)).app (sep_printable _ _ _ (by decide) (by decide))
      exact (ih (h1.clean hu)).mono fun p hp => h1.trans hp

theorem svcparamToStr_ext {nl k v u} (hu : Clean u) : (svcparamToStr k v u).Ens fun p => Ext nl u p.1 := by
  unfold svcparamToStr
  refine .ite (fun _ => .abort) fun _ => .ite (fun _ => .ok (svcMandatory_ext v hu)) fun _ => .ite (fun _ => ?_) fun _ =>
    .ite (fun _ => ?_) fun _ => .ite (fun _ => ?_) fun _ => .ite (fun _ => svcIp4_ext _ hu) fun _ => .ite (fun _ => svcIp6_ext _ hu) fun _ =>
    .ite (fun _ => ?_) fun _ => ?_
  · exact .ite (fun _ => .ok .refl) fun _ => .ok (Ext.app .refl (by decide))
  · split
    · rename_i a b
      have := be16_lt a b
      rw [decStr_eq (by omega) (by omega), ok_bind]
      exact .ok ((Ext.app .refl (printable_decText _)).app (by decide))
    · exact .ok .refl
  · rw [bytesToBase64_eq, ok_bind]
    exact .ok ((Ext.app .refl (printable_base64 _)).app (by decide))
  · have h34 : Ext nl u (u ++ [34]) := Ext.app .refl (by decide)
    refine .bind (svcAlpn_ext (nl := nl) _ (h34.clean hu)) fun p hp => ?_
    obtain ⟨u', r⟩ := p
    have := h34.trans hp
    exact .ite (fun _ => .ok (this.app (by decide))) fun _ => .ok this
  · rw [strQuoted_eq, ok_bind]
    exact .ok (Ext.app .refl ((printable_quoted v).append (by decide)))

/-! ### fields -/

/-- The buffer after a field. -/
def TRes.buf : TRes → List UInt8
  | .go st => st.u
  | .bad _ u => u

theorem need_ext {nl u0 st n k} (h : Ext nl u0 st.u) (hk : (k : Outcome TRes).Ens fun r => Ext nl u0 r.buf) :
    (need st n k).Ens fun r => Ext nl u0 r.buf := by
  unfold need
  exact .ite (fun _ => .ok h) fun _ => hk

theorem tSvcparams_ext {nl mem u0} (hu0 : Clean u0) (fuel : Nat) : ∀ {st}, Ext nl u0 st.u →
    (tSvcparams mem fuel st).Ens fun r => Ext nl u0 r.buf := by
  induction fuel with
  | zero => intro st _; exact .hang
  | succ fuel ih =>
    intro st h
    rw [tSvcparams]
    refine .ite (fun _ => need_ext h (.bind' fun k0 => .bind' fun k1 => .ite (fun _ => .ok h) fun hk => ?_)) fun _ => .ok h
    have h1 : Ext nl u0 (uAddCstr st.u (svcparamkeyToStr (be16 k0 k1) ++ if be16 k0 k1 ≠ 2 then [61] else [])) := by
      refine Ext.cstr h hu0 ?_
      rw [keyText_eq, if_neg hk]
      refine (printable_keyText _).append ?_
      split <;> decide
    refine need_ext h1 (.bind' fun l0 => .bind' fun l1 => need_ext h1 (.bind' fun v => ?_))
    refine .bind (svcparamToStr_ext (nl := nl) (h1.clean hu0)) fun p hp => ?_
    have h2 := h1.trans hp
    exact .ite (fun _ => .ok h2) fun _ => ih h2

theorem tString_ext {nl mem u0 st} (h : Ext nl u0 st.u) : (tString mem st).Ens fun r => Ext nl u0 r.buf := by
  unfold tString
  refine need_ext h (.bind' fun l => need_ext h (.bind' fun bs => ?_))
  rw [strQuoted_eq, ok_bind]
  exact .ok (Ext.app (b := st.u) h ((printable_quoted bs).append (by decide)))

theorem tRepstring_ext {nl mem u0} (fuel : Nat) : ∀ {st}, Ext nl u0 st.u → (tRepstring mem fuel st).Ens fun r => Ext nl u0 r.buf := by
  induction fuel with
  | zero => intro st _; exact .hang
  | succ fuel ih =>
    intro st h
    rw [tRepstring]
    refine .ite (fun _ => .bind (tString_ext h) fun r hr => ?_) fun _ => .ok h
    cases r with
    | go st => exact ih hr
    | bad r u => exact .ok hr

theorem typeTok_ext {nl u0 u t} (hu0 : Clean u0) (h : Ext nl u0 u) : Ext nl u0 (typeTok u t) := by
  rw [typeTok_eq (h.clean hu0)]
  exact h.app ((printable_typeText t).append (by decide))

theorem foldl_typeTok_ext {nl u0} (hu0 : Clean u0) (l : List Nat) : ∀ {u}, Ext nl u0 u → Ext nl u0 (l.foldl typeTok u) := by
  induction l with
  | nil => intro u h; exact h
  | cons t l ih => intro u h; exact ih (typeTok_ext hu0 h)

theorem tWindow_ext {nl u0 win} (hu0 : Clean u0) (as : List UInt8) : ∀ {lo u}, Ext nl u0 u → Ext nl u0 (tWindow win lo as u) := by
  induction as with
  | nil => intro lo u h; exact h
  | cons a as ih => intro lo u h; exact ih (foldl_typeTok_ext hu0 _ h)

theorem tBitmap_ext {nl mem u0} (hu0 : Clean u0) (fuel : Nat) : ∀ {st}, Ext nl u0 st.u →
    (tBitmap mem fuel st).Ens fun r => Ext nl u0 r.buf := by
  induction fuel with
  | zero => intro st _; exact .hang
  | succ fuel ih =>
    intro st h
    rw [tBitmap]
    exact .ite (fun _ => .bind' fun w => .bind' fun l => need_ext h (.bind' fun bs => ih (tWindow_ext hu0 bs h))) fun _ => .ok h

theorem edePurpose_printable : ∀ s ∈ edePurpose, Printable s := by decide +kernel

theorem printPrintable_ext {nl u0} (hu0 : Clean u0) (bs : List UInt8) : ∀ {u}, Ext nl u0 u → Ext nl u0 (printPrintable bs u) := by
  induction bs with
  | nil => intro u h; exact h
  | cons c cs ih =>
    intro u h
    refine ih (Ext.cstr h hu0 ?_)
    intro b hb
    simp only [List.mem_cons, List.not_mem_nil, or_false] at hb
    subst hb
    split
    · assumption
    · decide

theorem ipToUbuf_ext {nl u0 u fam bs} (hu0 : Clean u0) (h : Ext nl u0 u) : (ipToUbuf u fam bs).Ens fun p => Ext nl u0 p.1 := by
  unfold ipToUbuf
  refine .ite (fun _ => .ok h) fun _ => .ite (fun _ => .ok h) fun _ => .ite (fun _ => .ok h) fun _ => .bind' fun addr => ?_
  refine .bind (P := fun o => ∀ t, o = some t → Printable t) ?_ fun o ho => ?_
  · exact .ite (fun _ => inet4Ntop_ens _ _ (by omega)) fun _ => inet6Ntop_ens _ _ (by omega)
  · cases o with
    | none => exact .ub
    | some t => exact .ok (Ext.cstr h hu0 (ho t rfl))

theorem ednsData_ext {nl u0 u code bs} (hu0 : Clean u0) (h : Ext nl u0 u) : (ednsData u code bs).Ens fun p => Ext nl u0 p.1 := by
  unfold ednsData
  have h32 : Ext nl u0 (u ++ [32]) := h.app (by decide)
  simp only
  refine .ite (fun _ => ?_) fun _ => .ite (fun _ => ?_) fun _ => ?_
  · split
    · refine .bind (ipToUbuf_ext hu0 h32) fun p hp => .ite (fun _ => .ok hp) fun _ => .ok (Ext.cstr hp hu0 ?_)
      rw [fmtU_eq, fmtU_eq]
      exact (((show Printable [47] by decide).append (printable_decText _)).append (by decide)).append (printable_decText _)
    · exact .ok h32
  · split
    · rename_i i0 i1 rest
      have := be16_lt i0 i1
      rw [decStr_eq (by omega) (by omega), ok_bind]
      refine .ok ((printPrintable_ext hu0 rest (Ext.app ?_ (by decide))).app (by decide))
      have h1 : Ext nl u0 (u ++ [32] ++ decText (be16 i0 i1)) := h32.app (printable_decText _)
      cases hp : edePurpose[be16 i0 i1]? with
      | none => exact h1
      | some s =>
        refine Ext.cstr h1 hu0 ?_
        exact ((show Printable (ascii " (") by decide).append (edePurpose_printable s (List.mem_of_getElem? hp))).append (by decide)
    · exact .ok h32
  · rw [hexRun_eq _ (Nat.le_refl 3), ok_bind]
    refine .ok ((printPrintable_ext hu0 bs (Ext.app (Ext.app h32 ?_) (by decide))).app (by decide))
    exact Printable.flatMap fun b _ => (printable_hexText _ _).append (by decide)

theorem tEdns_ext {mem u0} (hu0 : Clean u0) (fuel : Nat) : ∀ {st}, Ext true u0 st.u → (tEdns mem fuel st).Ens fun r => Ext true u0 r.buf := by
  induction fuel with
  | zero => intro st _; exact .hang
  | succ fuel ih =>
    intro st h
    rw [tEdns]
    refine .ite (fun _ => need_ext h (.bind' fun c0 => .bind' fun c1 => ?_)) fun _ => .ok h
    have h1 : Ext true u0 (ednsCode st.u (be16 c0 c1)) := by
      unfold ednsCode
      split
      · exact h.app (by decide)
      split
      · exact h.app (by decide)
      · refine Ext.cstr h hu0 ?_
        rw [fmtU_eq]
        exact ((show Printable (ascii "OPT=") by decide).append (printable_decText _)).append (by decide)
    refine need_ext h1 (.bind' fun l0 => .bind' fun l1 => need_ext h1 (.bind' fun bs => ?_))
    refine .bind (ednsData_ext hu0 h1) fun p hp => .ite (fun _ => .ok hp) fun _ => ih ?_
    simp only
    split
    · exact hp.trans ⟨[10], rfl, by intro b hb; simp at hb; exact Or.inr ⟨rfl, hb⟩⟩
    · exact hp

/-! ### names -/

theorem printable_dec3 (c : UInt8) : Printable (92 :: dec3 c) := by
  have h : ∀ n < 256, Printable (92 :: dec3 (UInt8.ofNat n)) := by decide +kernel
  have := h c.toNat c.toNat_lt
  rwa [u8_ofNat_toNat] at this

theorem wr_ens {cap out b} : (wr cap out b).Ens fun o => o = out ++ [b] := by
  intro o ho
  unfold wr at ho
  split at ho
  · cases ho; rfl
  · cases ho

theorem wrN_ens {cap out bs} : (wrN cap out bs).Ens fun o => o = out ++ bs := by
  intro o ho
  unfold wrN at ho
  split at ho
  · cases ho; rfl
  · cases ho

theorem dtsInner_ens {cap mem} (k : Nat) : ∀ {src rem out}, Printable out → (dtsInner cap mem k src rem out).Ens fun p => Printable p.2.2 := by
  induction k with
  | zero => intro src rem out h; exact .ok h
  | succ k ih =>
    intro src rem out h
    rw [dtsInner]
    refine .ite (fun _ => .bind' fun c => ?_) fun _ => .ok h
    refine .ite (fun hc => .bind wrN_ens fun o ho => ?_) fun _ => .ite (fun hc => .bind wr_ens fun o ho => ?_) fun _ =>
      .ite (fun _ => ih (h.append (printable_dec3 c))) fun _ => .ub
    · subst ho
      refine ih (h.append ?_)
      intro b hb
      simp only [List.mem_cons, List.not_mem_nil, or_false] at hb
      rcases hb with rfl | rfl
      · decide
      · omega
    · subst ho
      refine ih (h.append ?_)
      intro b hb
      simp only [List.mem_cons, List.not_mem_nil, or_false] at hb
      subst hb
      omega

theorem dtsOuter_ens {cap mem} (fuel : Nat) : ∀ {src rem oc br out}, Printable out →
    (dtsOuter cap mem fuel src rem oc br out).Ens fun p => Printable p.2 := by
  induction fuel with
  | zero => intro _ _ _ _ _ _; exact .hang
  | succ fuel ih =>
    intro src rem oc br out h
    rw [dtsOuter]
    refine .ite (fun _ => .bind (dtsInner_ens _ h) fun p hp => ?_) fun _ => .ok h
    obtain ⟨s, r, o⟩ := p
    exact .bind wr_ens fun o' ho => .bind' fun oc => ih (by subst ho; exact Printable.append hp (by decide))

theorem domainToStr_ens {cap mem n} : (domainToStr cap mem n).Ens fun p => Printable p.2 := by
  unfold domainToStr
  refine .bind' fun oc => .bind (dtsOuter_ens _ printable_nil) fun p hp => ?_
  obtain ⟨br, out⟩ := p
  refine .ite (fun _ => .bind wr_ens fun o ho => .bind' fun _ => .ok ?_) fun _ => .bind' (o := wr cap out 0) fun _ => .ok hp
  subst ho
  exact Printable.append hp (by decide)

/-! ### all fields -/

/-- Newlines are written for EDNS options only. -/
theorem tField_ext {nl mem u0 t st} (hu0 : Clean u0) (hnl : t = .ednsOptRdata → nl = true) (h : Ext nl u0 st.u) :
    (tField mem t st).Ens fun r => Ext nl u0 r.buf := by
  have hname : (match lenUname mem st.src ((st.src : Int) + st.bytes).toNat with
    | .ok len => do
      let (_, s) ← domainToStr preslenName (mem.drop st.src) len
      .ok (TRes.go ⟨st.src + len, st.bytes - len, uAddCstr st.u s ++ [32]⟩)
    | .err r => .ok (TRes.bad (some r) st.u)
    | .ub => .ub
    | .hang => .hang
    | .abort => .abort : Outcome TRes).Ens fun r => Ext nl u0 r.buf := by
    split
    · exact .bind domainToStr_ens fun p hp => .ok ((Ext.cstr h hu0 hp).app (by decide))
    · exact .ok h
    · exact .ub
    · exact .hang
    · exact .abort
  have heui : ∀ {n : Nat}, 0 < n → (need st n (do
      let bs ← rdN mem st.src n
      let u ← euiRun true bs st.u
      .ok (.go ⟨st.src + n, st.bytes - n, u⟩))).Ens fun r => Ext nl u0 r.buf := by
    intro n hn
    refine need_ext h (.bind (P := fun bs => bs ≠ []) ?_ fun bs hb => ?_)
    · intro bs hb
      unfold rdN at hb
      split at hb
      · cases hb
        intro he
        have := congrArg List.length he
        simp at this
        omega
      · cases hb
    · rw [euiRun_eq bs _ hb, ok_bind]
      refine .ok (Ext.app (b := st.u) h ?_)
      refine Printable.intercalate (by decide) ?_
      intro x hx
      obtain ⟨b, _, rfl⟩ := List.mem_map.mp hx
      exact printable_hexText _ _
  cases t with
  | name => exact hname
  | uname => exact hname
  | bytes =>
    refine .bind' fun bs => ?_
    rw [hexRun_eq _ (Nat.le_refl 3), ok_bind]
    exact .ok (Ext.app (b := st.u) h (Printable.flatMap fun b _ => (printable_hexText _ _).append printable_nil))
  | bytesB64 =>
    refine .bind' fun bs => ?_
    rw [bytesToBase64_eq, ok_bind]
    exact .ok (Ext.app (b := st.u) h (printable_base64 _))
  | bytesStr =>
    refine .bind' fun bs => ?_
    rw [strQuoted_eq, ok_bind]
    exact .ok (Ext.app (b := st.u) h ((printable_quoted bs).append (by decide)))
  | ipv6prefix =>
    refine need_ext h (.bind' fun pl => .ite (fun _ => .ok h) fun _ => need_ext h (.bind' fun bs => ?_))
    have h1 : Ext nl u0 (uAddCstr st.u (fmtU pl.toNat ++ [32])) := by
      refine Ext.cstr h hu0 ?_
      rw [fmtU_eq]
      exact (printable_decText _).append (by decide)
    refine .bind (P := fun u => Ext nl u0 u) ?_ fun u hu => .ok hu
    refine .ite (fun _ => .bind (inet6Ntop_ens _ _ (by omega)) fun o ho => ?_) fun _ => .ok h1
    cases o with
    | none => exact .ub
    | some t => exact .ok ((Ext.cstr h1 hu0 (ho t rfl)).app (by decide))
  | salt =>
    refine need_ext h (.bind' fun l => need_ext h (.bind' fun bs => ?_))
    rw [hexRun_eq _ (Nat.le_refl 3), ok_bind]
    refine .ok (Ext.app (Ext.app ?_ (Printable.flatMap fun b _ => (printable_hexText _ _).append printable_nil)) (by decide))
    split
    · exact h.app (by decide)
    · exact h
  | hash =>
    refine need_ext h (.bind' fun l => need_ext h (.ite (fun _ => .ok (h.app (by decide))) fun hl => .bind (P := fun bs => bs ≠ []) ?_ fun bs hb => ?_))
    · intro bs hb
      unfold rdN at hb
      split at hb
      · cases hb
        intro he
        have := congrArg List.length he
        simp at this
        omega
      · cases hb
    · refine .bind (P := Printable) ?_ fun t ht => .ok (Ext.app (Ext.app (b := st.u) h ht) (by decide))
      rw [base32Encode_eq _ bs hb]
      refine .ok ?_
      intro b hb
      exact printable_base32 bs b (List.mem_of_mem_take hb)
  | int8 =>
    refine need_ext h (.bind' fun a => ?_)
    have := a.toNat_lt
    rw [decStr_eq (by omega) (by omega), ok_bind]
    exact .ok (Ext.app (Ext.app (b := st.u) h (printable_decText _)) (by decide))
  | int16 =>
    refine need_ext h (.bind' fun a => .bind' fun b => ?_)
    have := be16_lt a b
    rw [decStr_eq (by omega) (by omega), ok_bind]
    exact .ok (Ext.app (Ext.app (b := st.u) h (printable_decText _)) (by decide))
  | int32 =>
    refine need_ext h (.bind' fun a => .bind' fun b => .bind' fun c => .bind' fun d => ?_)
    have := be32_lt a b c d
    rw [decStr_eq (by omega) (by omega), ok_bind]
    exact .ok (Ext.app (Ext.app (b := st.u) h (printable_decText _)) (by decide))
  | ipv4 =>
    refine need_ext h (.bind (inet4Ntop_ens _ _ (by omega)) fun o ho => ?_)
    cases o with
    | none => exact .ub
    | some t => exact .ok ((Ext.cstr h hu0 (ho t rfl)).app (by decide))
  | ipv6 =>
    refine need_ext h (.bind (inet6Ntop_ens _ _ (by omega)) fun o ho => ?_)
    cases o with
    | none => exact .ub
    | some t => exact .ok ((Ext.cstr h hu0 (ho t rfl)).app (by decide))
  | eui48 => exact heui (n := 6) (by omega)
  | eui64 => exact heui (n := 8) (by omega)
  | string => exact tString_ext h
  | svcparams => exact tSvcparams_ext hu0 _ h
  | repstring => exact tRepstring_ext _ h
  | rrtype => exact need_ext h (.bind' fun a => .bind' fun b => .ok (typeTok_ext hu0 h))
  | typeBitmap => exact need_ext h (tBitmap_ext hu0 _ h)
  | ednsOptRdata =>
    have := hnl rfl
    subst this
    exact tEdns_ext hu0 _ h

theorem tFields_ext {nl mem u0} (hu0 : Clean u0) (ts : List Rdf) : ∀ {st}, (Rdf.ednsOptRdata ∈ ts → nl = true) → Ext nl u0 st.u →
    (tFields mem ts st).Ens fun r => Ext nl u0 r.buf := by
  induction ts with
  | nil => intro st _ h; exact .ok h
  | cons t ts ih =>
    intro st hnl h
    rw [tFields]
    refine .ite (fun _ => .ok h) fun _ => .bind (tField_ext hu0 (fun he => hnl (by simp [he])) h) fun r hr => ?_
    cases r with
    | go st => exact ih (fun he => hnl (by simp [he])) hr
    | bad r u => exact .ok hr

theorem rdataToUbuf_ext {u mem rdlen ty cls} (hu : Clean u) (hl : rdlen < 65536) :
    (rdataToUbuf u mem rdlen ty cls).Ens fun u' => ∃ u'', Ext (decide (ty = 41)) u u'' ∧ (u' = u'' ∨ u' = stripLast 32 u'') := by
  unfold rdataToUbuf
  split
  · rw [decStr_eq (by omega) (by omega), ok_bind]
    refine .bind' fun bs => ?_
    rw [hexRun_eq _ (by omega)]
    refine .ok ⟨_, ?_, Or.inl rfl⟩
    refine Ext.app (Ext.app (Ext.app (Ext.app .refl (by decide)) (printable_decText _)) (by decide)) ?_
    exact Printable.flatMap fun b _ => (printable_hexText _ _).append (by decide)
  · rename_i d hd
    refine .ite (fun _ => ?_) fun _ => .ok ⟨u, .refl, Or.inl rfl⟩
    have hnl : Rdf.ednsOptRdata ∈ d.types → decide (ty = 41) = true := by
      intro h
      by_contra hc
      exact (descr_tight hd).2 (by simpa using hc) h
    refine .bind (tFields_ext (nl := decide (ty = 41)) hu d.types hnl .refl) fun r hr => ?_
    split
    · exact .ok ⟨_, hr, Or.inr rfl⟩
    · exact .ok ⟨_, Ext.cstr hr hu (by decide), Or.inl rfl⟩
    · refine .ok ⟨_, Ext.cstr hr hu ?_, Or.inl rfl⟩
      rw [fmtU_eq]
      exact ((show Printable (ascii " ### PARSE ERROR #") by decide).append (printable_decText _)).append (by decide)

end Wdns
