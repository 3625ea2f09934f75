import Verif.Lemmas.TextPrintable
import Verif.Lemmas.EdnsText
import Verif.Props.Tables

/-!
# C107: how long the text of rdata can be

Property theorems: C107_rdata_text, C107_rr_text, C107_section_text.
-/

namespace Wdns
open Outcome Spec

theorem stripLast_length_le (c : UInt8) (u : List UInt8) : (stripLast c u).length ≤ u.length := by
  unfold stripLast
  split
  · rw [List.length_dropLast]; omega
  · exact (Nat.le_refl _)

theorem uAddCstr_length_le (u s : List UInt8) : (uAddCstr u s).length ≤ u.length + s.length := by
  unfold uAddCstr
  have := stripLast_length_le 0 u
  rw [List.length_append]; omega

theorem flatMap_length_le {α β : Type} (k : Nat) (f : α → List β) (l : List α) (h : ∀ a ∈ l, (f a).length ≤ k) : (l.flatMap f).length ≤ k * l.length := by
  induction l with
  | nil => simp
  | cons a l ih =>
    have h1 := h a (by simp)
    have h2 := ih fun a ha => h a (by simp [ha])
    rw [List.flatMap_cons, List.length_append, List.length_cons, Nat.mul_add]; omega

theorem charText_length_le (c : UInt8) : (charText c).length ≤ 4 := by
  unfold charText; split_ifs <;> simp

theorem quoted_length_le (s : List UInt8) : (quoted s).length ≤ 4 * s.length + 2 := by
  have := flatMap_length_le 4 charText s fun c _ => charText_length_le c
  simp only [quoted, List.length_append, List.length_cons, List.length_nil]; omega

theorem hexText_one (up : Bool) (b : UInt8) : (hexText up [b]).length = 2 := rfl

theorem dec5 {n : Nat} (h : n < 65536) : (decText n).length ≤ 5 := decText_length (by omega) (by omega)
theorem dec3_le (a : UInt8) : (decText a.toNat).length ≤ 3 := decText_length (by omega) (by have := a.toNat_lt; omega)

theorem rdN_ens (mem : List UInt8) (i n : Nat) : (rdN mem i n).Ens fun bs => bs.length = n ∧ i + n ≤ mem.length := by
  intro bs h
  unfold rdN at h
  split at h
  · cases h
    rw [List.length_take, List.length_drop]; omega
  · cases h

theorem inet6_short (v : List UInt8) : (inet6Ntop v 46).Ens fun o => ∀ t, o = some t → t.length ≤ 45 := by
  by_cases hv : 16 ≤ v.length
  · obtain ⟨t, h1, h2, -⟩ := inet6_roundtrip v 46 (Nat.le_refl _) hv
    rw [h1]
    exact .ok fun t ht => by cases ht; exact h2
  · unfold inet6Ntop rdN
    rw [if_neg (by omega), if_neg (by omega)]
    exact .ub

theorem dottedQuad_length_le (a b c d : UInt8) : (dottedQuad a b c d).length ≤ 15 := by
  have := dec3_le a; have := dec3_le b; have := dec3_le c; have := dec3_le d
  simp only [dottedQuad, List.length_append, List.length_cons, List.length_nil]; omega

theorem inet4_short (v : List UInt8) (n : Nat) (hn : 16 ≤ n) : (inet4Ntop v n).Ens fun o => ∀ t, o = some t → t.length ≤ 15 := by
  by_cases hv : 4 ≤ v.length
  · rw [inet4Ntop_quad hv hn]
    exact .ok fun t ht => by cases ht; exact dottedQuad_length_le _ _ _ _
  · unfold inet4Ntop rdN
    rw [if_neg (by omega), if_neg (by omega)]
    exact .ub

theorem dtsInner_size (cap : Nat) (mem : List UInt8) (n : Nat) : ∀ src rem out,
    (dtsInner cap mem n src rem out).Ens fun r => r.2.2.length + 4 * r.2.1 ≤ out.length + 4 * rem := by
  induction n with
  | zero => intro src rem out; exact .ok (Nat.le_refl _)
  | succ n ih =>
    intro src rem out
    rw [dtsInner]
    refine .ite (fun hr => .bind' fun c => ?_) fun _ => .ok (Nat.le_refl _)
    have hw : ∀ bs : List UInt8, bs.length ≤ 2 → (wrN cap out bs).Ens fun o => o.length ≤ out.length + 2 := by
      intro bs hb o ho
      unfold wrN at ho
      split at ho
      · cases ho; rw [List.length_append]; omega
      · cases ho
    have hw1 : (wr cap out c).Ens fun o => o.length ≤ out.length + 2 := by
      intro o ho
      unfold wr at ho
      split at ho
      · cases ho; rw [List.length_append]; simp
      · cases ho
    have hd : (dec3 c).length = 3 := rfl
    refine .ite (fun _ => .bind (hw [92, c] (by simp)) fun o ho => ?_) fun _ => .ite (fun _ => .bind hw1 fun o ho => ?_) fun _ => .ite (fun _ => ?_) fun _ => .ub
    · exact (ih _ _ o).mono fun r h => by omega
    · exact (ih _ _ o).mono fun r h => by omega
    · refine (ih _ _ _).mono fun r h => ?_
      rw [List.length_append, List.length_cons, hd] at h; omega

theorem wr_size (cap : Nat) (out : List UInt8) (c : UInt8) : (wr cap out c).Ens fun o => o.length = out.length + 1 := by
  intro o ho
  unfold wr at ho
  split at ho
  · cases ho; simp
  · cases ho

theorem dtsOuter_size (cap : Nat) (mem : List UInt8) (fuel : Nat) : ∀ src rem oclen br out,
    (dtsOuter cap mem fuel src rem oclen br out).Ens fun r => r.2.length ≤ out.length + 4 * rem := by
  induction fuel with
  | zero => intros; exact .hang
  | succ fuel ih =>
    intro src rem oclen br out
    rw [dtsOuter]
    refine .ite (fun hr => .bind (dtsInner_size _ _ _ _ _ _) fun r h => ?_) fun _ => .ok (Nat.le_add_right _ _)
    obtain ⟨s, rm, o⟩ := r
    refine .bind (wr_size _ _ _) fun o2 h2 => .bind' fun oc => (ih _ _ _ _ _).mono fun r h3 => ?_
    simp only at h; omega

theorem domainToStr_size (cap : Nat) (mem : List UInt8) (len : Nat) : (domainToStr cap mem len).Ens fun r => r.2.length ≤ 4 * len + 1 := by
  unfold domainToStr
  refine .bind' fun oc => .bind (dtsOuter_size _ _ _ _ _ _ _ _) fun r h => ?_
  obtain ⟨br, o⟩ := r
  simp only [List.length_nil] at h
  dsimp only
  refine .ite (fun _ => .bind (wr_size _ _ _) fun o2 h2 => .bind' fun _ => .ok ?_) fun _ => .bind (P := fun o2 => o2 = o) (.ok rfl) fun o2 h2 => .bind' fun _ => .ok ?_
  · simp only; omega
  · subst h2; simp only; omega

theorem lenLoop_size (mem : List UInt8) (fuel : Nat) : ∀ p len, (lenLoop mem fuel p len).Ens fun l => l = 2 ^ 32 - 1 ∨ l < len := by
  induction fuel with
  | zero => intros; exact .hang
  | succ fuel ih =>
    intro p len
    rw [lenLoop]
    refine .ite (fun _ => .ok (Or.inl rfl)) fun h => .bind' fun c => .ite (fun _ => .err) fun h1 => .ite (fun _ => .ok (Or.inr (by omega))) fun _ => ?_
    exact (ih _ _).mono fun l h => by omega

theorem lenUname_size (mem : List UInt8) (p eop : Nat) : (lenUname mem p eop).Ens fun n => p < eop ∧ n ≤ eop - p + 1 ∧ (eop - p < 65536 → 0 < n) := by
  unfold lenUname
  refine .ite (fun _ => .err) fun h => .bind (lenLoop_size _ _ _ _) fun l hl => .ite (fun _ => .err) fun _ => .ok ⟨by omega, ?_, ?_⟩
  · omega
  · omega

theorem rrtypeToStr_short {t : Nat} {s : List UInt8} (h : rrtypeToStr t = some s) : s.length ≤ 10 := by
  have hall : ∀ e ∈ rrtypeCases, e.2.length ≤ 10 := by decide +kernel
  exact hall _ (switchOf_mem h)

theorem typeTok_size (u : List UInt8) {t : Nat} (ht : t < 65536) : (typeTok u t).length ≤ u.length + 11 := by
  unfold typeTok
  cases h : rrtypeToStr t with
  | some s =>
    have h1 := uAddCstr_length_le u s
    have h2 := rrtypeToStr_short h
    simp only [List.length_append, List.length_cons, List.length_nil]; omega
  | none =>
    have h1 := uAddCstr_length_le u (ascii "TYPE" ++ fmtU t ++ [32])
    have h2 := dec5 ht
    have h3 : (ascii "TYPE").length = 4 := rfl
    simp only [List.length_append, List.length_cons, List.length_nil, fmtU_eq, h3] at h1 ⊢; omega

theorem foldl_typeTok_size (l : List Nat) (hl : ∀ t ∈ l, t < 65536) : ∀ u, (l.foldl typeTok u).length ≤ u.length + 11 * l.length := by
  induction l with
  | nil => intro u; simp
  | cons t l ih =>
    intro u
    have h1 := typeTok_size u (hl t (by simp))
    have h2 := ih (fun t ht => hl t (by simp [ht])) (typeTok u t)
    rw [List.foldl_cons, List.length_cons]; omega

theorem tWindow_size (win : Nat) (hw : win < 256) (as : List UInt8) : ∀ lo u, lo + 8 * as.length ≤ 65536 → (tWindow win lo as u).length ≤ u.length + 88 * as.length := by
  induction as with
  | nil => intro lo u _; simp [tWindow]
  | cons a as ih =>
    intro lo u h
    rw [List.length_cons] at h
    rw [tWindow]
    have h1 := ih (lo + 8) ((typesOfByte win lo a).foldl typeTok u) (by omega)
    have h2 := foldl_typeTok_size (typesOfByte win lo a) ?_ u
    · have h3 : (typesOfByte win lo a).length ≤ 8 := by
        unfold typesOfByte
        exact Nat.le_trans (List.length_filterMap_le _ _) (by simp)
      rw [List.length_cons]; omega
    · intro t ht
      unfold typesOfByte at ht
      obtain ⟨j, hj, ht⟩ := List.mem_filterMap.mp ht
      split at ht
      · cases ht
        have hj := List.mem_range.mp hj
        refine Nat.or_lt_two_pow (n := 16) ?_ (by omega)
        rw [Nat.shiftLeft_eq]; omega
      · cases ht

/-- Each octet that is taken is worth 88 characters. -/
def Paid (st : TState) : TRes → Prop
  | .go st' => st'.u.length + 88 * st'.bytes.toNat ≤ st.u.length + 88 * st.bytes.toNat ∧ (st'.bytes ≤ st.bytes ∨ st'.bytes = 0) ∧
    -1 ≤ st'.bytes ∧ (st'.bytes < 0 → 0 < st'.src)
  | .bad _ u => u.length ≤ st.u.length + 88 * st.bytes.toNat

theorem Paid.trans {a b : TState} {r : TRes} (h : Paid a (.go b)) (h' : Paid b r) (h0 : 0 ≤ a.bytes) : Paid a r := by
  cases r with
  | go c =>
    obtain ⟨h1, h2, h3, h4⟩ := h
    obtain ⟨h5, h6, h7, h8⟩ := h'
    exact ⟨by omega, by omega, h7, h8⟩
  | bad _ u =>
    obtain ⟨h1, -⟩ := h
    have h2 : u.length ≤ _ := h'
    exact Nat.le_trans h2 h1

theorem need_paid {st0 st : TState} {n : Nat} {k : Outcome TRes} (h : st.u.length ≤ st0.u.length + 88 * st0.bytes.toNat)
    (hk : (n : Int) ≤ st.bytes → k.Ens (Paid st0)) : (need st n k).Ens (Paid st0) := by
  unfold need
  exact .ite (fun _ => .ok h) fun h => hk (by omega)

/-- `n` octets are taken for at most `88 n` characters. -/
theorem paid_go {st : TState} {n s : Nat} {u : List UInt8} (hn : (n : Int) ≤ st.bytes) (hu : u.length ≤ st.u.length + 88 * n) : Paid st (.go ⟨s, st.bytes - n, u⟩) := by
  refine ⟨?_, ?_, ?_, ?_⟩ <;> simp only <;> omega

/-! ### SvcParams -/

theorem svcMandatory_size : ∀ v u, (svcMandatory v u).1.length ≤ u.length + 8 * v.length
  | [], u => by simp [svcMandatory]
  | [_], u => by simp [svcMandatory]
  | a :: b :: rest, u => by
    have h1 := C50_svcparamkey_fits (be16 a b) (by have := be16_lt a b; omega)
    have h2 := uAddCstr_length_le u (svcparamkeyToStr (be16 a b))
    have h3 := svcMandatory_size rest (uAddCstr u (svcparamkeyToStr (be16 a b)) ++ [if rest = [] then 32 else 44])
    rw [svcMandatory]
    simp only [List.length_append, List.length_cons, List.length_nil] at h3 ⊢; omega

theorem svcIp4_size (fuel : Nat) : ∀ v u, (svcIp4 fuel v u).Ens fun p => p.1.length ≤ u.length + 4 * v.length := by
  induction fuel with
  | zero => intro v u; exact .hang
  | succ fuel ih =>
    intro v u
    rw [svcIp4]
    refine .ite (fun _ => .ok (Nat.le_add_right _ _)) fun _ => .ite (fun _ => .ok (Nat.le_add_right _ _)) fun h4 => .bind (inet4_short v 16 (by omega)) fun o ho => ?_
    cases o with
    | none => exact .ok (Nat.le_add_right _ _)
    | some t =>
      have h1 := ho t rfl
      have h2 := uAddCstr_length_le u t
      refine (ih _ _).mono fun p hp => ?_
      rw [List.length_drop, List.length_append, List.length_singleton] at hp; omega

theorem svcIp6_size (fuel : Nat) : ∀ v u, (svcIp6 fuel v u).Ens fun p => p.1.length ≤ u.length + 4 * v.length := by
  induction fuel with
  | zero => intro v u; exact .hang
  | succ fuel ih =>
    intro v u
    rw [svcIp6]
    refine .ite (fun _ => .ok (Nat.le_add_right _ _)) fun _ => .ite (fun _ => .ok (Nat.le_add_right _ _)) fun h4 => .bind (inet6_short v) fun o ho => ?_
    cases o with
    | none => exact .ok (Nat.le_add_right _ _)
    | some t =>
      have h1 := ho t rfl
      have h2 := uAddCstr_length_le u t
      refine (ih _ _).mono fun p hp => ?_
      rw [List.length_drop, List.length_append, List.length_singleton] at hp; omega

theorem alpnByte_size (c : UInt8) : (alpnByte c).Ens fun t => t.length ≤ 4 := by
  unfold alpnByte
  refine .ite (fun _ => .ok (by simp)) fun _ => .ite (fun _ => .ok (by simp)) fun _ => .ite (fun _ => .ok (by simp)) fun _ => .ite (fun _ => .ok (by simp)) fun _ => ?_
  rw [escDDD_eq]
  exact .ok (by simp)

theorem alpnId_size (l : List UInt8) : ∀ u, (alpnId l u).Ens fun t => t.length ≤ u.length + 4 * l.length := by
  induction l with
  | nil => intro u; exact .ok (by simp)
  | cons c l ih =>
    intro u
    refine .bind (alpnByte_size c) fun t ht => (ih _).mono fun r hr => ?_
    rw [List.length_append] at hr
    rw [List.length_cons]; omega

theorem svcAlpn_size (fuel : Nat) : ∀ v u, (svcAlpn fuel v u).Ens fun p => p.1.length ≤ u.length + 4 * v.length := by
  induction fuel with
  | zero => intro v u; exact .hang
  | succ fuel ih =>
    intro v u
    cases v with
    | nil => exact .ok (Nat.le_add_right _ _)
    | cons l v =>
      rw [svcAlpn]
      refine .ite (fun _ => .ok (Nat.le_add_right _ _)) fun hl => .bind (alpnId_size _ _) fun w hw => (ih _ _).mono fun p hp => ?_
      rw [List.length_drop, List.length_append, List.length_singleton] at hp
      rw [List.length_take] at hw
      rw [List.length_cons]; omega

theorem svcparamToStr_size (key : Nat) (v u : List UInt8) : (svcparamToStr key v u).Ens fun p => p.1.length ≤ u.length + 8 * v.length + 8 := by
  unfold svcparamToStr
  have h0 : u.length ≤ u.length + 8 * v.length + 8 := by omega
  refine .ite (fun _ => .abort) fun _ => .ite (fun _ => .ok (Nat.le_add_right_of_le (svcMandatory_size v u))) fun _ => .ite (fun _ => ?_) fun _ =>
    .ite (fun _ => ?_) fun _ => .ite (fun _ => ?_) fun _ => .ite (fun _ => (svcIp4_size _ _ _).mono fun _ h => by omega) fun _ =>
    .ite (fun _ => (svcIp6_size _ _ _).mono fun _ h => by omega) fun _ => .ite (fun _ => ?_) fun _ => ?_
  · exact .ite (fun _ => .ok h0) fun _ => .ok (by simp only [List.length_append, List.length_singleton]; omega)
  · split
    · rename_i a b
      have hb := be16_lt a b
      have h5 := dec5 hb
      rw [decStr_eq (by omega) (by omega), ok_bind]
      exact .ok (by simp only [List.length_append, List.length_cons, List.length_nil]; omega)
    · exact .ok h0
  · rw [bytesToBase64_eq, ok_bind]
    have := base64_length v
    exact .ok (by simp only [List.length_append, List.length_cons, List.length_nil]; omega)
  · refine .bind (svcAlpn_size _ _ _) fun p hp => ?_
    obtain ⟨u', r⟩ := p
    simp only [List.length_append, List.length_singleton] at hp
    exact .ite (fun _ => .ok (by simp only [List.length_append, List.length_singleton]; omega)) fun _ => .ok (by simp only; omega)
  · rw [strQuoted_eq, ok_bind]
    have := quoted_length_le v
    exact .ok (by simp only [List.length_append, List.length_singleton]; omega)

theorem tSvcparams_paid (mem : List UInt8) (fuel : Nat) : ∀ st, 0 ≤ st.bytes → (tSvcparams mem fuel st).Ens (Paid st) := by
  induction fuel with
  | zero => intro st _; exact .hang
  | succ fuel ih =>
    intro st hst
    rw [tSvcparams]
    refine .ite (fun h0 => ?_) fun _ => .ok ⟨Nat.le_refl _, .inl (Int.le_refl _), by omega, fun h => absurd h (by omega)⟩
    refine need_paid (by omega) fun h2 => .bind' fun k0 => .bind' fun k1 => .ite (fun _ => .ok (Nat.le_add_right _ _)) fun hk => ?_
    have e1 := C50_svcparamkey_fits (be16 k0 k1) (by have := be16_lt k0 k1; omega)
    have e2 := uAddCstr_length_le st.u (svcparamkeyToStr (be16 k0 k1) ++ if be16 k0 k1 ≠ 2 then [61] else [])
    have e3 : (if be16 k0 k1 ≠ 2 then [61] else [] : List UInt8).length ≤ 1 := by split <;> simp
    rw [List.length_append] at e2
    refine need_paid (by simp only; omega) fun h4 => .bind' fun l0 => .bind' fun l1 => need_paid (by simp only; omega) fun h5 =>
      .bind (rdN_ens _ _ _) fun v hv => .bind (svcparamToStr_size _ _ _) fun p hp => ?_
    obtain ⟨u', r⟩ := p
    simp only at h4 h5 hp
    refine .ite (fun _ => .ok ?_) fun _ => ?_
    · show u'.length ≤ _
      omega
    · refine (ih _ (by simp only; omega)).mono fun r hr => Paid.trans ⟨?_, ?_, ?_, ?_⟩ hr hst <;> simp only <;> omega

/-! ### the other loops -/

theorem tString_paid (mem : List UInt8) (st : TState) : (tString mem st).Ens fun r => Paid st r ∧ ∀ st', r = .go st' → st.src < st'.src ∧ 0 ≤ st'.bytes ∧ st'.bytes ≤ st.bytes := by
  unfold tString need
  refine .ite (fun _ => .ok ⟨Nat.le_add_right _ _, by simp⟩) fun h1 => .bind' fun l => ?_
  refine .ite (fun _ => .ok ⟨Nat.le_add_right _ _, by simp⟩) fun h2 => .bind (rdN_ens _ _ _) fun bs hbs => ?_
  rw [strQuoted_eq, ok_bind]
  have := quoted_length_le bs
  simp only at h2 hbs
  refine .ok ⟨⟨?_, ?_, ?_, ?_⟩, ?_⟩
  · simp only [List.length_append, List.length_singleton]; omega
  · simp only; omega
  · simp only; omega
  · simp only; omega
  · rintro st' ⟨⟩
    simp only; omega

theorem tRepstring_paid (mem : List UInt8) (fuel : Nat) : ∀ st, 0 ≤ st.bytes → (tRepstring mem fuel st).Ens (Paid st) := by
  induction fuel with
  | zero => intro st _; exact .hang
  | succ fuel ih =>
    intro st hst
    rw [tRepstring]
    refine .ite (fun h0 => .bind (tString_paid mem st) fun r hr => ?_) fun _ => .ok ⟨Nat.le_refl _, .inl (Int.le_refl _), by omega, fun h => absurd h (by omega)⟩
    cases r with
    | go s =>
      obtain ⟨h1, h2, h3⟩ := hr.2 s rfl
      exact (ih s h2).mono fun r h => hr.1.trans h hst
    | bad _ u => exact .ok hr.1

theorem tBitmap_paid (mem : List UInt8) (fuel : Nat) : ∀ st, 0 ≤ st.bytes → (tBitmap mem fuel st).Ens (Paid st) := by
  induction fuel with
  | zero => intro st _; exact .hang
  | succ fuel ih =>
    intro st hst
    rw [tBitmap]
    refine .ite (fun h0 => .bind' fun w => .bind' fun l => need_paid (by simp only; omega) fun h2 => .bind (rdN_ens _ _ _) fun bs hbs => ?_) fun _ =>
      .ok ⟨Nat.le_refl _, .inl (Int.le_refl _), by omega, fun h => absurd h (by omega)⟩
    have hw := w.toNat_lt
    have hl := l.toNat_lt
    have h3 := tWindow_size w.toNat (by omega) bs 0 st.u (by omega)
    simp only at h2 hbs
    refine (ih _ (by simp only; omega)).mono fun r hr => Paid.trans ⟨?_, ?_, ?_, ?_⟩ hr hst <;> simp only <;> omega

theorem printPrintable_size (bs : List UInt8) : ∀ u, (printPrintable bs u).length ≤ u.length + bs.length := by
  induction bs with
  | nil => intro u; simp [printPrintable]
  | cons c bs ih =>
    intro u
    have h1 := uAddCstr_length_le u [if 32 ≤ c.toNat ∧ c.toNat ≤ 126 then c else 46]
    have h2 := ih (uAddCstr u [if 32 ≤ c.toNat ∧ c.toNat ≤ 126 then c else 46])
    rw [printPrintable, List.length_cons]
    rw [List.length_singleton] at h1; omega

theorem ipToUbuf_size (u : List UInt8) (fam : Nat) (bs : List UInt8) : (ipToUbuf u fam bs).Ens fun p => p.1.length ≤ u.length + 45 := by
  unfold ipToUbuf
  refine .ite (fun _ => .ok (Nat.le_add_right _ _)) fun _ => .ite (fun _ => .ok (Nat.le_add_right _ _)) fun _ => .ite (fun _ => .ok (Nat.le_add_right _ _)) fun _ => ?_
  refine .bind' fun a => ?_
  refine .bind (P := fun o => ∀ t, o = some t → t.length ≤ 45) (.ite (fun _ => (inet4_short _ 46 (by omega)).mono fun o h t ht => by have := h t ht; omega) fun _ => inet6_short _) fun o ho => ?_
  cases o with
  | none => exact .ub
  | some t =>
    have h1 := ho t rfl
    have h2 := uAddCstr_length_le u t
    exact .ok (by simp only; omega)

theorem edePurpose_short : ∀ s ∈ edePurpose, s.length ≤ 40 := by decide +kernel

theorem ednsData_size (u : List UInt8) (code : Nat) (bs : List UInt8) : (ednsData u code bs).Ens fun p => p.1.length ≤ u.length + 4 * bs.length + 64 := by
  unfold ednsData
  dsimp only
  refine .ite (fun _ => ?_) fun _ => .ite (fun _ => ?_) fun _ => ?_
  · split
    · rename_i f0 f1 source scope addr
      refine .bind (ipToUbuf_size _ _ _) fun p hp => ?_
      obtain ⟨u', r⟩ := p
      simp only [List.length_append, List.length_singleton] at hp
      have h1 := dec3_le source
      have h2 := dec3_le scope
      have h3 := uAddCstr_length_le u' ([47] ++ fmtU source.toNat ++ [47] ++ fmtU scope.toNat)
      simp only [List.length_append, List.length_singleton, fmtU_eq] at h3
      refine .ite (fun _ => .ok ?_) fun _ => .ok ?_
      · simp only [List.length_cons]; omega
      · simp only [List.length_append, List.length_singleton, fmtU_eq, List.length_cons]; omega
    · exact .ok (by simp only [List.length_append, List.length_singleton]; omega)
  · split
    · rename_i i0 i1 rest
      have hb := be16_lt i0 i1
      have h5 := dec5 hb
      rw [decStr_eq (by omega) (by omega), ok_bind]
      have hw : (match edePurpose[be16 i0 i1]? with
          | some s => uAddCstr (u ++ [32] ++ decText (be16 i0 i1)) (ascii " (" ++ s ++ ascii ")")
          | none => u ++ [32] ++ decText (be16 i0 i1)).length ≤ u.length + 50 := by
        split
        · rename_i s hs
          have h6 := edePurpose_short s (List.mem_of_getElem? hs)
          have h7 := uAddCstr_length_le (u ++ [32] ++ decText (be16 i0 i1)) (ascii " (" ++ s ++ ascii ")")
          have h8 : (ascii " (").length = 2 := rfl
          have h9 : (ascii ")").length = 1 := rfl
          simp only [List.length_append, List.length_singleton, h8, h9] at h7 ⊢; omega
        · simp only [List.length_append, List.length_singleton]; omega
      have key : ∀ w : List UInt8, w.length ≤ u.length + 50 →
          (printPrintable rest (w ++ ascii ": (") ++ [41]).length ≤ u.length + 4 * (i0 :: i1 :: rest).length + 64 := by
        intro w hw
        have h10 := printPrintable_size rest (w ++ ascii ": (")
        have h11 : (ascii ": (").length = 3 := rfl
        rw [List.length_append, h11] at h10
        rw [List.length_append, List.length_singleton, List.length_cons, List.length_cons]; omega
      exact .ok (key _ hw)
    · exact .ok (by simp only [List.length_append, List.length_singleton]; omega)
  · rw [hexRun_eq _ (Nat.le_refl 3), ok_bind]
    have h1 := flatMap_length_le 3 (fun b => hexText false [b] ++ [32]) bs fun b _ => by rw [List.length_append, hexText_one]; simp
    have h2 := printPrintable_size bs (u ++ [32] ++ bs.flatMap (fun b => hexText false [b] ++ [32]) ++ [40, 34])
    refine .ok ?_
    simp only [List.length_append, List.length_cons, List.length_nil] at h2 ⊢; omega

theorem ednsCode_size (u : List UInt8) {code : Nat} (h : code < 65536) : (ednsCode u code).length ≤ u.length + 14 := by
  unfold ednsCode
  have h1 : (ascii "CLIENT-SUBNET:").length = 14 := rfl
  have h2 : (ascii "EDE:").length = 4 := rfl
  have h3 : (ascii "OPT=").length = 4 := rfl
  have h4 := dec5 h
  have h5 := uAddCstr_length_le u (ascii "OPT=" ++ fmtU code ++ [58])
  split_ifs
  · rw [List.length_append]; omega
  · rw [List.length_append]; omega
  · simp only [List.length_append, List.length_singleton, fmtU_eq] at h5 ⊢; omega

theorem tEdns_paid (mem : List UInt8) (fuel : Nat) : ∀ st, 0 ≤ st.bytes → (tEdns mem fuel st).Ens (Paid st) := by
  induction fuel with
  | zero => intro st _; exact .hang
  | succ fuel ih =>
    intro st hst
    rw [tEdns]
    refine .ite (fun h0 => ?_) fun _ => .ok ⟨Nat.le_refl _, .inl (Int.le_refl _), by omega, fun h => absurd h (by omega)⟩
    refine need_paid (by omega) fun h2 => .bind' fun k0 => .bind' fun k1 => ?_
    have e1 := ednsCode_size st.u (be16_lt k0 k1)
    refine need_paid (by simp only; omega) fun h4 => .bind' fun l0 => .bind' fun l1 => need_paid (by simp only; omega) fun h5 =>
      .bind (rdN_ens _ _ _) fun v hv => .bind (ednsData_size _ _ _) fun p hp => ?_
    obtain ⟨u', r⟩ := p
    simp only at h4 h5 hp
    refine .ite (fun _ => .ok ?_) fun _ => ?_
    · show u'.length ≤ _
      omega
    · have e2 : ∀ b : Int, (if b > 0 then u' ++ [10] else u').length ≤ u'.length + 1 := by intro b; split <;> simp
      have e3 := e2 (st.bytes - 2 - 2 - (be16 l0 l1 : Nat))
      refine (ih _ (by simp only; omega)).mono fun r hr => Paid.trans ⟨?_, ?_, ?_, ?_⟩ hr hst <;> simp only <;> omega

/-! ### fields -/

theorem euiRun_size (first : Bool) (bs : List UInt8) : ∀ u, (euiRun first bs u).Ens fun t => t.length ≤ u.length + 3 * bs.length := by
  induction bs generalizing first with
  | nil => intro u; exact .ok (by simp)
  | cons b bs ih =>
    intro u
    rw [euiRun, hexByte_eq _ (Nat.le_refl 3), ok_bind]
    refine (ih false _).mono fun r hr => ?_
    rw [List.length_append, hexText_one] at hr
    have : (if first = true then u else u ++ [45]).length ≤ u.length + 1 := by split <;> simp
    rw [List.length_cons]; omega

/-- A field of at most 65535 octets, all that there is in the memory. -/
theorem tField_paid {mem : List UInt8} (hm : mem.length < 65536) (t : Rdf) (st : TState) (h0 : st.bytes ≠ 0) (hs : st.bytes < 0 → 0 < st.src)
    (hb : st.bytes < 65536) (hb' : -1 ≤ st.bytes) :
    (tField mem t st).Ens (Paid st) := by
  have hname : (match lenUname mem st.src ((st.src : Int) + st.bytes).toNat with
    | .ok len => do
      let (_, s) ← domainToStr preslenName (mem.drop st.src) len
      .ok (TRes.go ⟨st.src + len, st.bytes - len, uAddCstr st.u s ++ [32]⟩)
    | .err r => .ok (TRes.bad (some r) st.u)
    | .ub => .ub
    | .hang => .hang
    | .abort => .abort : Outcome TRes).Ens (Paid st) := by
    split
    · rename_i n hn
      obtain ⟨h1, h2, h5⟩ := lenUname_size _ _ _ n hn
      have h6 := h5 (by omega)
      refine .bind (domainToStr_size _ _ _) fun p hp => .ok ⟨?_, ?_, ?_, ?_⟩
      · have h3 := uAddCstr_length_le st.u p.2
        simp only [List.length_append, List.length_singleton]; omega
      · simp only; omega
      · simp only; omega
      · simp only; omega
    · exact .ok (Nat.le_add_right _ _)
    · exact .ub
    · exact .hang
    · exact .abort
  have heui : ∀ n : Nat, (need st n (do
      let bs ← rdN mem st.src n
      let u ← euiRun true bs st.u
      .ok (.go ⟨st.src + n, st.bytes - n, u⟩))).Ens (Paid st) := fun n =>
    need_paid (by omega) fun hn => .bind (rdN_ens _ _ _) fun bs hbs => .bind (euiRun_size _ _ _) fun u hu => .ok (paid_go hn (by omega))
  have hrest : ∀ f : List UInt8 → List UInt8, (∀ bs, bs ≠ [] → (f bs).length ≤ st.u.length + 88 * bs.length) →
      (rdRest mem st >>= fun bs => ok (.go ⟨st.src + bs.length, 0, f bs⟩)).Ens (Paid st) := by
    intro f hf
    unfold rdRest
    by_cases hneg : st.bytes < 0
    · rw [if_pos hneg]; exact .ub
    · rw [if_neg hneg]
      refine .bind (rdN_ens _ _ _) fun bs hbs => .ok ⟨?_, .inr rfl, by simp, fun h => absurd h (by simp)⟩
      have := hf bs (by intro e; rw [e] at hbs; simp only [List.length_nil] at hbs; omega)
      simp only; omega
  cases t with
  | name => exact hname
  | uname => exact hname
  | bytes =>
    have := hrest (fun bs => st.u ++ bs.flatMap fun b => hexText true [b] ++ []) fun bs _ => by
      have := flatMap_length_le 2 (fun b => hexText true [b] ++ []) bs fun b _ => by rw [List.append_nil, hexText_one]; exact Nat.le_refl _
      rw [List.length_append]; omega
    simp only [tField, hexRun_eq _ (Nat.le_refl 3), ok_bind]
    exact this
  | bytesB64 =>
    simp only [tField, bytesToBase64_eq, ok_bind]
    refine .bind (rdN_ens _ _ _) fun bs hbs => .ok ⟨?_, .inr rfl, by simp, fun h => absurd h (by simp)⟩
    have := base64_length bs
    simp only [List.length_append]; omega
  | bytesStr =>
    have := hrest (fun bs => st.u ++ (quoted bs ++ [32])) fun bs hb => by
      have h1 := quoted_length_le bs
      have h2 := List.length_pos_iff.mpr hb
      simp only [List.length_append, List.length_singleton]; omega
    simp only [tField, strQuoted_eq, ok_bind]
    exact this
  | ipv6prefix =>
    refine need_paid (by omega) fun h1 => .bind' fun pl => .ite (fun _ => .ok (Nat.le_add_right _ _)) fun _ => need_paid (by omega) fun h2 => .bind (rdN_ens _ _ _) fun bs hbs => ?_
    have e1 := uAddCstr_length_le st.u (fmtU pl.toNat ++ [32])
    have e2 := dec3_le pl
    rw [List.length_append, List.length_singleton] at e1
    rw [← fmtU_eq] at e2
    refine .bind (P := fun u => u.length ≤ st.u.length + 50) ?_ fun u hu => .ok (paid_go h2 (Nat.le_trans hu (Nat.add_le_add_left (Nat.le_trans (show 50 ≤ 88 * 1 by decide) (Nat.mul_le_mul_left 88 (Nat.le_add_right 1 _))) _)))
    refine .ite (fun _ => .bind (inet6_short _) fun o ho => ?_) fun _ => .ok (by omega)
    cases o with
    | none => exact .ub
    | some t =>
      have h3 := ho t rfl
      have h4 := uAddCstr_length_le (uAddCstr st.u (fmtU pl.toNat ++ [32])) t
      exact .ok (by rw [List.length_append, List.length_singleton]; omega)
  | salt =>
    refine need_paid (by omega) fun h1 => .bind' fun l => need_paid (by omega) fun h2 => .bind (rdN_ens _ _ _) fun bs hbs => ?_
    rw [hexRun_eq _ (Nat.le_refl 3), ok_bind]
    have e1 := flatMap_length_le 2 (fun b => hexText false [b] ++ []) bs fun b _ => by rw [List.append_nil, hexText_one]; exact Nat.le_refl _
    have e2 : (if l.toNat = 0 then st.u ++ [45] else st.u).length ≤ st.u.length + 1 := by split <;> simp
    have := paid_go (st := st) (n := 1 + l.toNat) (s := st.src + 1 + l.toNat)
      (u := ((if l.toNat = 0 then st.u ++ [45] else st.u) ++ bs.flatMap fun b => hexText false [b] ++ []) ++ [32]) h2 (by
        rw [List.length_append, List.length_append, List.length_singleton]; omega)
    exact .ok this
  | hash =>
    refine need_paid (by omega) fun h1 => .bind' fun l => need_paid (by omega) fun h2 => .ite (fun _ => .ok ?_) fun hl => .bind (rdN_ens _ _ _) fun bs hbs => ?_
    · exact paid_go (n := 1) h1 (by simp only [List.length_append, List.length_cons, List.length_nil]; omega)
    · rw [base32Encode_eq _ _ (by intro e; rw [e] at hbs; simp only [List.length_nil] at hbs; omega), ok_bind]
      have e1 : ((base32 bs).take (2 * l.toNat + 1)).length ≤ 2 * l.toNat + 1 := by rw [List.length_take]; omega
      have := paid_go (st := st) (n := 1 + l.toNat) (s := st.src + 1 + l.toNat) (u := st.u ++ (base32 bs).take (2 * l.toNat + 1) ++ [32]) h2 (by
        rw [List.length_append, List.length_append, List.length_singleton]; omega)
      exact .ok this
  | int8 =>
    refine need_paid (by omega) fun h1 => .bind' fun a => ?_
    have := a.toNat_lt
    have e1 := dec3_le a
    rw [decStr_eq (by omega) (by omega), ok_bind]
    exact .ok (paid_go (n := 1) h1 (by rw [List.length_append, List.length_append, List.length_singleton]; omega))
  | int16 =>
    refine need_paid (by omega) fun h1 => .bind' fun a => .bind' fun b => ?_
    have hlt := be16_lt a b
    have e1 := dec5 hlt
    rw [decStr_eq (by omega) (by omega), ok_bind]
    exact .ok (paid_go (n := 2) h1 (by rw [List.length_append, List.length_append, List.length_singleton]; omega))
  | int32 =>
    refine need_paid (by omega) fun h1 => .bind' fun a => .bind' fun b => .bind' fun c => .bind' fun d => ?_
    have hlt := be32_lt a b c d
    have e1 : (decText (be32 a b c d)).length ≤ 10 := decText_length (by omega) (by omega)
    rw [decStr_eq (by omega) (by omega), ok_bind]
    exact .ok (paid_go (n := 4) h1 (by rw [List.length_append, List.length_append, List.length_singleton]; omega))
  | ipv4 =>
    refine need_paid (by omega) fun h1 => .bind (inet4_short _ 16 (by omega)) fun o ho => ?_
    cases o with
    | none => exact .ub
    | some t =>
      have h3 := ho t rfl
      have h4 := uAddCstr_length_le st.u t
      exact .ok (paid_go (n := 4) h1 (by rw [List.length_append, List.length_singleton]; omega))
  | ipv6 =>
    refine need_paid (by omega) fun h1 => .bind (inet6_short _) fun o ho => ?_
    cases o with
    | none => exact .ub
    | some t =>
      have h3 := ho t rfl
      have h4 := uAddCstr_length_le st.u t
      exact .ok (paid_go (n := 16) h1 (by rw [List.length_append, List.length_singleton]; omega))
  | eui48 => exact heui 6
  | eui64 => exact heui 8
  | string => exact (tString_paid mem st).mono fun r h => h.1
  | svcparams =>
    by_cases hneg : st.bytes < 0
    · rw [tField, tSvcparams, if_neg (by omega)]
      exact .ok ⟨Nat.le_refl _, .inl (Int.le_refl _), hb', hs⟩
    · exact tSvcparams_paid _ _ _ (by omega)
  | repstring =>
    by_cases hneg : st.bytes < 0
    · rw [tField, tRepstring, if_neg (by omega)]
      exact .ok ⟨Nat.le_refl _, .inl (Int.le_refl _), hb', hs⟩
    · exact tRepstring_paid _ _ _ (by omega)
  | rrtype =>
    refine need_paid (by omega) fun h1 => .bind' fun a => .bind' fun b => ?_
    have := typeTok_size st.u (be16_lt a b)
    exact .ok (paid_go (n := 2) h1 (by omega))
  | typeBitmap => exact need_paid (by omega) fun h1 => tBitmap_paid _ _ _ (by omega)
  | ednsOptRdata =>
    by_cases hneg : st.bytes < 0
    · rw [tField, tEdns, if_neg (by omega)]
      exact .ok ⟨Nat.le_refl _, .inl (Int.le_refl _), hb', hs⟩
    · exact tEdns_paid _ _ _ (by omega)

theorem tFields_size {mem : List UInt8} (hm : mem.length < 65536) (ts : List Rdf) : ∀ st : TState, (st.bytes < 0 → 0 < st.src) → st.bytes < 65536 → -1 ≤ st.bytes →
    (tFields mem ts st).Ens fun r => r.buf.length ≤ st.u.length + 88 * st.bytes.toNat := by
  induction ts with
  | nil => intro st _ _ _; exact .ok (Nat.le_add_right _ _)
  | cons t ts ih =>
    intro st hs hb hb'
    rw [tFields]
    refine .ite (fun _ => .ok (Nat.le_add_right _ _)) fun h0 => .bind (tField_paid hm t st h0 hs hb hb') fun r hr => ?_
    cases r with
    | go s =>
      obtain ⟨h1, h2, h3, h4⟩ := hr
      exact (ih s h4 (by omega) h3).mono fun r h => by omega
    | bad _ u => exact .ok hr

theorem rdataToUbuf_size (v w : List UInt8) (hw : w.length < 65536) (ty cls : Nat) : (rdataToUbuf v w w.length ty cls).Ens fun u => u.length ≤ v.length + 88 * w.length + 30 := by
  unfold rdataToUbuf
  cases hd : recordDescr ty with
  | none =>
    dsimp only
    rw [decStr_eq (by omega) (by omega), ok_bind]
    refine .bind (rdN_ens _ _ _) fun bs hbs => ?_
    rw [hexRun_eq _ (by omega)]
    have h1 := dec5 hw
    have h2 := flatMap_length_le 3 (fun b => hexText false [b] ++ [32]) bs fun b _ => by rw [List.length_append, hexText_one]; simp
    have h3 : (ascii "\\# ").length = 3 := rfl
    exact .ok (by simp only [List.length_append, List.length_singleton, h3] at h2 ⊢; omega)
  | some d =>
    dsimp only
    refine .ite (fun _ => .bind (tFields_size hw d.types ⟨0, w.length, v⟩ (by simp) (by simp only; omega) (by simp only; omega)) fun r hr => ?_) fun _ => .ok (by omega)
    simp only [Int.toNat_natCast] at hr
    cases r with
    | go st =>
      have := stripLast_length_le 32 st.u
      have hr : st.u.length ≤ _ := hr
      exact .ok (by omega)
    | bad o u =>
      have hr : u.length ≤ _ := hr
      cases o with
      | none =>
        have h1 := uAddCstr_length_le u (ascii " ### PARSE ERROR ###")
        have h2 : (ascii " ### PARSE ERROR ###").length = 20 := rfl
        exact .ok (by omega)
      | some r =>
        have h1 := uAddCstr_length_le u (ascii " ### PARSE ERROR #" ++ fmtU r.toNat ++ ascii " ###")
        have h2 : (ascii " ### PARSE ERROR #").length = 18 := rfl
        have h3 : (ascii " ###").length = 4 := rfl
        have h4 : (fmtU r.toNat).length ≤ 2 := by cases r <;> decide
        simp only [List.length_append, h2, h3] at h1
        exact .ok (by omega)

/-- **C107.** The text of rdata has at most 88 characters for each octet, and 30 more, whatever the octets, the type and the class (if none of the octets
behind the rdata are looked at, see C74). -/
theorem C107_rdata_text (w : List UInt8) (ty cls : Nat) (s : List UInt8) (hw : w.length < 65536) (h : rdataToStr w w.length ty cls = ok s) :
    s.length ≤ 88 * w.length + 30 := by
  unfold rdataToStr at h
  obtain ⟨u, hu, h⟩ := bind_eq_ok.mp h
  cases h
  have := rdataToUbuf_size [] w hw ty cls u hu
  rw [List.length_nil, Nat.zero_add] at this
  exact Nat.le_trans ((List.takeWhile_sublist _).length_le) this

/-- A type bitmap comes close: 8 types of 11 characters with the space for each octet of the bitmap. -/
example : (match rdataToStr ([1, 97, 0] ++ 255 :: 8 :: List.replicate 8 255) 13 47 1 with | ok s => s.length | _ => 0) = 2 + 64 * 10 := by decide +kernel
example : (match rdataToStr [3] 1 1 1 with | ok s => s | _ => []) = ascii " ### PARSE ERROR ###" := by decide +kernel

theorem domainToStr_fits (cap : Nat) (mem : List UInt8) (len : Nat) : (domainToStr cap mem len).Ens fun r => r.2.length + 1 ≤ cap := by
  unfold domainToStr
  refine .bind' fun oc => .bind' fun r => ?_
  obtain ⟨br, o⟩ := r
  have hw : ∀ o : List UInt8, (wr cap o 0).Ens fun _ => o.length + 1 ≤ cap := by
    intro o x h
    unfold wr at h
    split at h
    · assumption
    · cases h
  dsimp only
  exact .ite (fun _ => .bind' fun o2 => .bind (hw o2) fun _ h => .ok h) fun _ => .bind (P := fun o2 => o2 = o) (.ok rfl) fun o2 h2 => .bind (hw o2) fun _ h => .ok h

theorem classTok_size {c : Nat} (h : c < 65536) : (classTok c).length ≤ 11 := by
  unfold classTok
  split
  · rename_i s hs
    have hall : ∀ e ∈ rrclassCases, e.2.length ≤ 10 := by decide +kernel
    have : s.length ≤ 10 := hall _ (switchOf_mem hs)
    rw [List.length_cons]; omega
  · have h1 : (ascii " CLASS").length = 6 := rfl
    have h2 := dec5 h
    rw [List.length_append, h1, fmtU_eq]; omega

theorem rrtypeTok_size {t : Nat} (h : t < 65536) : (rrtypeTok t).length ≤ 11 := by
  unfold rrtypeTok
  split
  · rename_i s hs
    have := rrtypeToStr_short hs
    rw [List.length_cons]; omega
  · have h1 : (ascii " TYPE").length = 5 := rfl
    have h2 := dec5 h
    rw [List.length_append, h1, fmtU_eq]; omega

/-- The octets of the rdata of a record. -/
def Spec.rdataOctets (rr : RR) : Nat := match rr.rdata with | none => 0 | some rd => rd.len

/-- A record as the parser makes it: 16-bit type and class, 32-bit TTL, and an rdata block of the size that is noted. -/
def Spec.Compact (rr : RR) : Prop := rr.rrtype < 65536 ∧ rr.rrclass < 65536 ∧ rr.rrttl < 2 ^ 32 ∧
  ∀ rd, rr.rdata = some rd → rd.data.length = rd.len ∧ rd.len < 65536

theorem rrToUbuf_size (u : List UInt8) (rr : RR) (sec : Nat) (h : Compact rr) : (rrToUbuf u rr sec).Ens fun t => t.length ≤ u.length + 88 * rdataOctets rr + 1100 := by
  obtain ⟨h1, h2, h3, h4⟩ := h
  unfold rrToUbuf
  refine .bind (domainToStr_fits _ _ _) fun p hp => ?_
  obtain ⟨n, name⟩ := p
  have hcap : preslenName = 1025 := rfl
  simp only at hp
  dsimp only
  have a1 : (if sec = 0 then u ++ [59] else u).length ≤ u.length + 1 := by split <;> simp
  have a2 := uAddCstr_length_le (if sec = 0 then u ++ [59] else u) name
  generalize uAddCstr (if sec = 0 then u ++ [59] else u) name = u2 at a2 ⊢
  refine .bind (P := fun t : List UInt8 => t.length ≤ u2.length + 11) ?_ fun u3 h3' => ?_
  · refine .ite (fun _ => ?_) fun _ => .ok (by omega)
    rw [decStr_eq (by omega) (by omega), ok_bind]
    have : (decText rr.rrttl).length ≤ 10 := decText_length (by omega) (by omega)
    exact .ok (by simp only [List.length_append, List.length_singleton]; omega)
  have a3 := uAddCstr_length_le u3 (classTok rr.rrclass)
  have a4 := classTok_size h2
  have a5 := uAddCstr_length_le (uAddCstr u3 (classTok rr.rrclass)) (rrtypeTok rr.rrtype)
  have a6 := rrtypeTok_size h1
  generalize uAddCstr (uAddCstr u3 (classTok rr.rrclass)) (rrtypeTok rr.rrtype) = u4 at a5 ⊢
  refine .bind (P := fun t : List UInt8 => t.length ≤ u4.length + 88 * rdataOctets rr + 31) ?_ fun u5 h5 => .ok (by
    rw [List.length_append, List.length_singleton]; omega)
  refine .ite (fun _ => ?_) fun _ => .ok (by omega)
  unfold rdataOctets
  split
  · exact .ub
  · rename_i rd hrd
    obtain ⟨b1, b2⟩ := h4 rd hrd
    have := rdataToUbuf_size (u4 ++ [32]) rd.data (by omega) rr.rrtype rr.rrclass
    rw [b1, List.length_append, List.length_singleton] at this
    exact this.mono fun t ht => by rw [hrd]; simp only; omega

/-- **C107.** The line of a record has at most 88 characters for each octet of its rdata, and 1100 more. -/
theorem C107_rr_text (rr : RR) (sec : Nat) (s : List UInt8) (hc : Compact rr) (h : rrToStr rr sec = ok s) : s.length ≤ 88 * rdataOctets rr + 1100 := by
  unfold rrToStr at h
  obtain ⟨u, hu, h⟩ := bind_eq_ok.mp h
  cases h
  have := rrToUbuf_size [] rr sec hc u hu
  rw [List.length_nil, Nat.zero_add] at this
  exact Nat.le_trans (List.takeWhile_sublist _).length_le this

theorem rrsToUbuf_size (sec : Nat) (l : List RR) (h : ∀ r ∈ l, Compact r) : ∀ u, (rrsToUbuf sec l u).Ens fun t =>
    t.length ≤ u.length + 88 * (l.map rdataOctets).sum + 1100 * l.length := by
  induction l with
  | nil => intro u; exact .ok (by simp)
  | cons r l ih =>
    intro u
    rw [rrsToUbuf]
    refine .bind (rrToUbuf_size u r sec (h r (by simp))) fun u2 h2 => (ih (fun r hr => h r (by simp [hr])) u2).mono fun t ht => ?_
    rw [List.map_cons, List.sum_cons, List.length_cons]; omega

/-- **C107.** The text of a section has at most 88 characters for each octet of rdata in it, and 1100 for each record. -/
theorem C107_section_text (a : RRsetArray) (sec : Nat) (s : List UInt8) (hc : ∀ r ∈ a.rrs, Compact r) (h : rrsetArrayToStr a sec = ok s) :
    s.length ≤ 88 * (a.rrs.map rdataOctets).sum + 1100 * a.rrs.length := by
  unfold rrsetArrayToStr at h
  obtain ⟨u, hu, h⟩ := bind_eq_ok.mp h
  cases h
  have := rrsToUbuf_size sec a.rrs hc [] u hu
  rw [List.length_nil, Nat.zero_add] at this
  exact Nat.le_trans (List.takeWhile_sublist _).length_le this

/-- An A record of the root. -/
example : Compact ⟨300, 1, 1, ⟨1, [0]⟩, some ⟨4, [192, 0, 2, 1]⟩⟩ ∧ (rrToStr ⟨300, 1, 1, ⟨1, [0]⟩, some ⟨4, [192, 0, 2, 1]⟩⟩ 1) = ok (ascii ". 300 IN A 192.0.2.1\n") := by
  refine ⟨⟨by decide, by decide, by decide, ?_⟩, by decide +kernel⟩
  rintro rd ⟨⟩
  decide

end Wdns
