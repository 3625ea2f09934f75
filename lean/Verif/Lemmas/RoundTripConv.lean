import Verif.Lemmas.RoundTrip
import Verif.Lemmas.TextStable
import Verif.Lemmas.ScanGrammar

/-!
# What comes back unchanged can be expressed in text: converse of `fields_scan`
-/

namespace Wdns
open Outcome Spec

/-! ## strings and lists of protocol ids -/

theorem charsRead_text (s : List UInt8) : CharsRead true (s.flatMap charText) s := by
  induction s with
  | nil => exact .nil
  | cons c s ih =>
    rw [List.flatMap_cons]
    unfold charText
    split
    · rename_i h
      refine .esc ?_ ih
      rcases h with h | h
      · exact Or.inl (UInt8.toNat_inj.mp h)
      · exact Or.inr (UInt8.toNat_inj.mp h)
    · rename_i h
      split
      · rename_i h'
        refine .plain h'.1 h'.2 ?_ ?_ ?_ ih
        · rintro rfl; exact h (Or.inr rfl)
        · rintro - rfl; exact h (Or.inl rfl)
        · intro hq; cases hq
      · have hc := c.toNat_lt
        have t3 : ∀ n < 10, (UInt8.ofNat (48 + n)).toNat = 48 + n := by decide +kernel
        have hd : ∀ n < 10, DigitChar (UInt8.ofNat (48 + n)) := by
          intro n hn; unfold DigitChar; rw [t3 n hn]; omega
        have h3 : three (UInt8.ofNat (48 + c.toNat / 100)) (UInt8.ofNat (48 + c.toNat / 10 % 10)) (UInt8.ofNat (48 + c.toNat % 10)) = c.toNat := by
          unfold three
          rw [t3 _ (by omega), t3 _ (by omega), t3 _ (by omega)]
          omega
        have := CharsRead.ddd (q := true) (hd (c.toNat / 100) (by omega)) (hd (c.toNat / 10 % 10) (by omega)) (hd (c.toNat % 10) (by omega))
          (by rw [h3]; omega) ih
        rw [h3, u8_ofNat_toNat] at this
        exact this

theorem stringReads_quoted (s rest : List UInt8) : StringReads (quoted s ++ rest) s rest := by
  have := StringReads.quoted (rest := rest) (charsRead_text s)
  simpa [Spec.quoted] using this

theorem alpnReads_det {x : List UInt8} {a : List (List UInt8)} (h : AlpnReads x a) : ∀ {b}, AlpnReads x b → a = b := by
  induction h with
  | nil => intro b h; cases h; rfl
  | char h1 h2 _ ih =>
    intro b h
    cases h with
    | char _ _ h => have := ih h; injection this with e1 e2; rw [e1, e2]
    | esc _ _ => exact absurd rfl h2
    | comma _ => exact absurd rfl h1
  | esc h1 _ ih =>
    intro b h
    cases h with
    | char _ h2 _ => exact absurd rfl h2
    | esc _ h => have := ih h; injection this with e1 e2; rw [e1, e2]
  | comma _ ih =>
    intro b h
    cases h with
    | char h1 _ _ => exact absurd rfl h1
    | comma h => rw [ih h]

theorem alpnReads_item (s : List UInt8) {t : List UInt8} {i : List UInt8} {is : List (List UInt8)} (h : AlpnReads t (i :: is)) :
    AlpnReads (listItem s ++ t) ((s ++ i) :: is) := by
  induction s with
  | nil => exact h
  | cons c s ih =>
    have e : listItem (c :: s) ++ t = (if c.toNat = 44 ∨ c.toNat = 92 then [92, c] else [c]) ++ (listItem s ++ t) := by
      simp [listItem, List.append_assoc]
    rw [e]
    split
    · rename_i hc
      refine .esc ?_ ih
      rcases hc with hc | hc
      · exact Or.inl (UInt8.toNat_inj.mp hc)
      · exact Or.inr (UInt8.toNat_inj.mp hc)
    · rename_i hc
      refine .char ?_ ?_ ih
      · rintro rfl; exact hc (Or.inl rfl)
      · rintro rfl; exact hc (Or.inr rfl)

theorem alpnReads_commas : ∀ ids : List (List UInt8), ids ≠ [] → AlpnReads (commas (ids.map listItem)) ids
  | [], h => absurd rfl h
  | [i], _ => by
    have := alpnReads_item i .nil
    simpa [commas, List.intercalate] using this
  | i :: j :: is, _ => by
    have := alpnReads_item i (.comma (alpnReads_commas (j :: is) (by simp)))
    simpa [commas, List.intercalate, List.intersperse] using this

theorem alpnLength_short : ∀ ids : List (List UInt8), ids.getLast? = some [] → (∀ i ∈ ids, i.length < 256) →
    alpnLength ids + 1 = (ids.flatMap encString).length
  | [], h, _ => by simp at h
  | [i], h, _ => by
    simp at h
    subst h
    simp [alpnLength, encString]
  | i :: j :: is, h, hl => by
    have := alpnLength_short (j :: is) (by simpa using h) fun x hx => hl x (by simp [hx])
    have h1 := hl i (by simp)
    rw [List.flatMap_cons, alpnLength]
    · rw [List.length_append, ← this, encString, List.length_cons, Nat.mod_eq_of_lt h1]
      omega
    · simp

/-! ## one service parameter -/

theorem key_split {k : Nat} {key s : List UInt8} {s' : List UInt8} (h1 : 61 ∉ key) (h2 : 32 ∉ key)
    (hs : ∀ c, s'.head? = some c → c = 61 ∨ c = 32) (h : key ++ s' = keyText k ++ 61 :: s) : key = keyText k ∧ s' = 61 :: s := by
  have e1 : (key ++ s').takeWhile (fun c => decide (c ≠ 61 ∧ c ≠ 32)) = key := by
    refine takeWhile_app (fun x hx => ?_) fun x hx => ?_
    · simp only [ne_eq, decide_eq_true_eq]
      exact ⟨fun e => h1 (e ▸ hx), fun e => h2 (e ▸ hx)⟩
    · rcases hs x hx with rfl | rfl <;> decide
  have e2 : (keyText k ++ 61 :: s).takeWhile (fun c => decide (c ≠ 61 ∧ c ≠ 32)) = keyText k := by
    refine takeWhile_app (fun x hx => by simp [keyText_plainer k x hx]) fun x hx => ?_
    simp at hx; subst hx; decide
  rw [h, e2] at e1
  exact ⟨e1.symm, by rw [← e1] at h; exact List.append_cancel_left h⟩

theorem keyReads_self {k j : Nat} (hk : k < 65535) (h : KeyReads (keyText k) j) : j = k := by
  have hj := keyReads_lt h
  have h1 := (strToSvcparamkey_iff (keyText k) j (by omega)).mpr h
  have := C50_svcparamkey k hk
  rw [keyText_eq, if_neg (by omega)] at this
  omega

/-- A list that starts with `key=`. -/
theorem svcReads_key {k : Nat} (hk : k < 65535) {s W : List UInt8} (h : SvcReads (keyText k ++ 61 :: s) W) :
    ∃ x rest v n w, StringReads s x rest ∧ ValueReads k x v n ∧ W = net16 k ++ net16 (n % 65536) ++ v ++ w := by
  generalize hT : keyText k ++ 61 :: s = T at h
  cases h with
  | nil => simp at hT
  | space _ =>
    obtain ⟨c, cs, hc⟩ : ∃ c cs, keyText k = c :: cs := by
      cases h : keyText k with
      | nil => exact absurd h (keyText_ne_nil k)
      | cons c cs => exact ⟨c, cs, rfl⟩
    rw [hc, List.cons_append] at hT
    have := (keyText_plainer k c (by rw [hc]; simp)).2
    exact absurd (List.cons.inj hT).1 this
  | flag h1 h2 h3 h4 _ =>
    obtain ⟨-, e⟩ := key_split h1 h2 (fun c hc => Or.inr (h4 c hc)) hT.symm
    have := h4 61 (by rw [e]; rfl)
    exact absurd this (by decide)
  | param h1 h2 h3 h4 h5 h6 h7 =>
    obtain ⟨rfl, e⟩ := key_split h1 h2 (by simp) hT.symm
    obtain rfl := keyReads_self hk h3
    cases e
    exact ⟨_, _, _, _, _, h5, h6, rfl⟩

theorem pieces_one {c : UInt8} {x : List UInt8} (h : c ∉ x) (hne : x ≠ []) : pieces c x = [x] := by
  rw [← strtok_eq_pieces]
  refine strtok_one _ x (fun d hd => ?_) hne
  simp only [decide_eq_false_iff_not]
  rintro rfl
  exact h hd

theorem forall2_ne_nil {α β : Type} {R : α → β → Prop} {l : List α} {m : List β} (h : List.Forall₂ R l m) (hl : l ≠ []) : m ≠ [] := by
  cases h with
  | nil => exact absurd rfl hl
  | cons => simp

/-- A parameter with an empty list is never read as such. -/
theorem not_empty_list {k : Nat} {v s W : List UInt8} (he : EmptyList k v) (h : SvcReads (keyText k ++ 61 :: s) (encParam (k, v) ++ W))
    (hl : (encParam (k, v) ++ W).length < 65536) : False := by
  obtain ⟨rfl, hk⟩ := he
  obtain ⟨x, rest, v', n, w, -, h2, h3⟩ := svcReads_key (by omega) h
  have hlen := congrArg List.length h3
  simp only [encParam, List.length_append, net16, List.length_cons, List.length_nil] at hlen hl
  have hpos : n = v'.length ∧ 0 < v'.length := by
    unfold ValueReads at h2
    rcases hk with rfl | rfl | rfl
    · simp only [if_true] at h2
      obtain ⟨a, b, ks, c, rfl⟩ := h2
      refine ⟨b, ?_⟩
      have := List.length_pos_of_ne_nil (forall2_ne_nil c a)
      rw [net16_flat_len]; omega
    · simp only [show ¬ (4 : Nat) = 0 by decide, show ¬ (4 : Nat) = 1 by decide, show ¬ (4 : Nat) = 3 by decide, if_false, if_true] at h2
      obtain ⟨a, b, ks, c, rfl⟩ := h2
      refine ⟨b, ?_⟩
      exact List.length_pos_of_ne_nil ((forall2_flatten_len (fun _ _ h => ip4Reads_length h) c).2 a (by decide))
    · simp only [show ¬ (6 : Nat) = 0 by decide, show ¬ (6 : Nat) = 1 by decide, show ¬ (6 : Nat) = 3 by decide,
        show ¬ (6 : Nat) = 4 by decide, show ¬ (6 : Nat) = 5 by decide, if_false, if_true] at h2
      obtain ⟨a, b, ks, c, rfl⟩ := h2
      refine ⟨b, ?_⟩
      exact List.length_pos_of_ne_nil ((forall2_flatten_len (fun _ _ h => ip6Reads_length h) c).2 a (by decide))
  have e : net16 (n % 65536) = net16 0 := by
    simp only [encParam, List.append_assoc, List.length_nil] at h3
    have h4 := List.append_cancel_left h3
    exact ((List.append_inj h4 (by simp [net16])).1).symm
  have := net16_eq (by omega) (by omega) e
  omega

/-- A parameter that is read as itself can be expressed. -/
theorem param_conv {k : Nat} {v t rest W : List UInt8} (ht : SvcText k v t) (hv : SvcValueOK k v) (hk : k < 65536)
    (hs : Sep rest) (he : ¬ EmptyList k v) (h : SvcReads (paramText k t ++ rest) (encParam (k, v) ++ W))
    (hl : (encParam (k, v) ++ W).length < 65536) : ParamExact k v := by
  by_cases hk2 : k = 2
  · subst hk2
    exact ⟨he, by simp, by simp, by simp⟩
  have hk' : k < 65535 := by
    have : k ≠ 65535 := by rintro rfl; exact hv
    omega
  have hT : paramText k t ++ rest = keyText k ++ 61 :: (t ++ rest) := by simp [paramText, hk2]
  rw [hT] at h
  obtain ⟨x, rest', v', n, w, h1, h2, h3⟩ := svcReads_key hk' h
  have hlen := congrArg List.length h3
  have hvl : v.length < 65536 := by
    simp only [encParam, List.length_append] at hl; omega
  simp only [encParam, List.length_append, net16, List.length_cons, List.length_nil] at hlen hl
  have h3' : net16 v.length = net16 (n % 65536) ∧ v ++ W = v' ++ w := by
    simp only [encParam, List.append_assoc] at h3
    exact List.append_inj (List.append_cancel_left h3) (by simp [net16])
  have hn := net16_eq hvl (by omega) h3'.1
  refine ⟨he, ?_, ?_, ?_⟩
  · rintro rfl
    unfold ValueReads at h2
    simp only [if_true] at h2
    obtain ⟨a, b, ks, c, rfl⟩ := h2
    have e : v = ks.flatMap net16 := (List.append_inj h3'.2 (by omega)).1
    have hks : ∀ k ∈ ks, k < 65535 := by
      intro j hj
      obtain ⟨i, hi, rfl⟩ := List.mem_iff_getElem.mp hj
      have hl := c.length_eq
      exact keyReads_lt (c.get (by omega) hi)
    rw [e, words16_net16 fun k hk => by have := hks k hk; omega]
    intro hm
    have := hks _ hm
    omega
  · rintro rfl
    unfold ValueReads at h2
    simp only [show ¬ (1 : Nat) = 0 by decide, if_false, if_true] at h2
    obtain ⟨ids', a, rfl, rfl⟩ := h2
    obtain ⟨ids, hi, rfl, rfl⟩ := ht
    have hx : x = commas (ids.map listItem) := (stringReads_det h1 (stringReads_quoted _ rest)).1
    have hne : ids ≠ [] := by
      rintro rfl; exact hv.1 rfl
    subst hx
    obtain rfl := alpnReads_det a (alpnReads_commas ids hne)
    rcases List.eq_nil_or_concat ids' with rfl | ⟨is, i, rfl⟩
    · exact absurd rfl hne
    · rw [List.concat_eq_append] at hi hn ⊢
      refine ⟨is, i, hi, ?_, rfl⟩
      rintro rfl
      have := alpnLength_short (is ++ [[]]) (by simp) hi
      omega
  · rintro rfl
    unfold ValueReads at h2
    simp only [show ¬ (5 : Nat) = 0 by decide, show ¬ (5 : Nat) = 1 by decide, show ¬ (5 : Nat) = 3 by decide,
      show ¬ (5 : Nat) = 4 by decide, if_false, if_true] at h2
    obtain ⟨tok, a, b, -⟩ := h2
    have ht' : t = base64 v := ht
    subst ht'
    constructor
    · rintro rfl
      have e : base64 [] = [] := rfl
      rw [e, List.nil_append] at h1
      rcases hs with rfl | hs
      · generalize hg : ([] : List UInt8) = g at h1
        cases h1 with
        | quoted => simp at hg
        | bare _ h => exact absurd (List.append_eq_nil_iff.mp hg.symm).1 h
      · cases h1 with
        | quoted => simp at hs
        | @bare t' _ _ hc hne _ _ =>
          cases hc with
          | nil => exact hne rfl
          | plain _ _ _ _ h5 => simp at hs; exact h5 rfl hs
          | esc => simp at hs
          | ddd => simp at hs
    · by_contra hlong
      have hb := base64_length v
      have hp := plain_base64 v
      have htne : base64 v ≠ [] := by intro e; rw [e] at hb; simp at hb; omega
      have hbare : StringReads (base64 v ++ rest) (base64 v) rest := by
        refine .bare ?_ htne ?_ ?_
        · have : ∀ l : List UInt8, Plain l → CharsRead false l l := by
            intro l
            induction l with
            | nil => intro _; exact .nil
            | cons c l ih =>
              intro hp
              have := hp c (by simp)
              refine .plain (by omega) (by omega) ?_ (by simp) ?_ (ih fun x hx => hp x (by simp [hx]))
              · rintro rfl; exact this.2.2.2.2.2 rfl
              · rintro - rfl; have := this.1; simp at this
          exact this _ hp
        · intro hh
          have := (hp 34 (List.mem_of_mem_head? (by rw [hh]; rfl))).2.2.1
          exact this rfl
        · intro c hc
          rcases hs with rfl | hs
          · simp at hc
          · rw [hs] at hc; cases hc; decide
      have hx : x = base64 v := (stringReads_det h1 hbare).1
      subst hx
      have hct : cText (base64 v) = base64 v := by
        unfold cText
        have := takeWhile_app (p := fun c : UInt8 => decide (c ≠ 0)) (t := base64 v) (rest := []) (fun c hc => by
          have := (hp c hc).1
          simp only [ne_eq, decide_eq_true_eq]
          rintro rfl; simp at this) (by simp)
        simpa using this
      rw [hct, pieces_one (fun hm => by have := (hp 32 hm).1; simp at this) htne] at a
      simp at a
      subst a
      omega

theorem svcReads_space {s w : List UInt8} (h : SvcReads (32 :: s) w) : SvcReads s w := by
  have e1 := sSvcparams_complete h ((32 :: s).length + 1) [] (by omega)
  rw [sSvcparams_cons, if_pos rfl] at e1
  obtain ⟨w', hw, -, e⟩ := sSvcparams_sound _ _ _ _ _ e1
  rw [List.nil_append, List.nil_append] at e
  rw [e]
  exact hw

theorem params_conv {ps : List (Nat × List UInt8)} {toks : List (List UInt8)} (h : ParamToks ps toks) :
    (∀ p ∈ ps, p.1 < 65536 ∧ p.2.length < 65536 ∧ SvcValueOK p.1 p.2) → SvcReads (spaced toks) (ps.flatMap encParam) →
    (ps.flatMap encParam).length < 65536 → ∀ p ∈ ps, ParamExact p.1 p.2 := by
  induction h with
  | nil => intro _ _ _ p hp; simp at hp
  | @cons k v t ps toks h1 h2 h3 ih =>
    intro hp hr hl
    obtain ⟨x1, x2, x3⟩ := hp (k, v) (by simp)
    rw [spaced_tails] at hr
    rw [List.flatMap_cons] at hl hr
    have hx := param_conv h2 x3 x1 (sep_tails toks) h1 hr hl
    have hrest : SvcReads (spaced toks) (ps.flatMap encParam) := by
      have hlen : (paramText k t ++ tails toks).length < (paramText k t ++ tails toks).length + 1 := by omega
      have e1 := sSvcparams_complete hr _ [] hlen
      rw [scan_param h2 x3 x1 x2 hx (sep_tails toks)] at e1
      cases toks with
      | nil =>
        obtain ⟨w, hw, -, e⟩ := sSvcparams_sound _ _ _ _ _ e1
        rw [List.nil_append, List.nil_append] at e
        rw [List.append_cancel_left e]
        exact hw
      | cons t2 ts =>
        have e : tails (t2 :: ts) = 32 :: spaced (t2 :: ts) := by rw [spaced_tails]; rfl
        obtain ⟨w, hw, -, e'⟩ := sSvcparams_sound _ _ _ _ _ e1
        rw [List.nil_append, List.nil_append] at e'
        rw [List.append_cancel_left e']
        rw [e] at hw
        exact svcReads_space hw
    intro p hp'
    rcases List.mem_cons.mp hp' with rfl | hp'
    · exact hx
    · refine ih (fun p hp' => hp p (by simp [hp'])) hrest ?_ p hp'
      simp only [List.length_append] at hl; omega
  | @last k v t h1 h2 =>
    intro hp hr hl
    exfalso
    have hk : k ≠ 2 := by rintro rfl; have := h1.2; omega
    simp only [spaced, List.intercalate, List.intersperse, List.flatten_cons, List.flatten_nil, List.append_nil, paramText, if_neg hk] at hr
    rw [List.flatMap_cons] at hr hl
    exact not_empty_list h1 hr hl
  | @glue k v t ps tok toks h1 h2 _ _ =>
    intro hp hr hl
    exfalso
    have hk : k ≠ 2 := by rintro rfl; have := h1.2; omega
    rw [spaced_tails, paramText, if_neg hk] at hr
    rw [List.flatMap_cons] at hr hl
    simp only [List.append_assoc, List.cons_append] at hr
    exact not_empty_list h1 hr hl

/-! ## all fields -/

theorem scanned_split {t : Rdf} {ts : List Rdf} {s w : List UInt8} (h : Scanned (t :: ts) s w) (hw : w ≠ []) :
    ∃ b s' f rest w', s = b ++ s' ∧ (∀ c ∈ b, IsBlank c) ∧ (∀ c, s'.head? = some c → ¬ IsBlank c) ∧
      FieldReads t s' f rest ∧ Scanned ts rest w' ∧ w = f ++ w' := by
  cases h with
  | stop => exact absurd rfl hw
  | field h1 _ h3 h4 h5 => exact ⟨_, _, _, _, _, rfl, h1, h3, h4, h5, rfl⟩

/-- One field: if the text of a field is read as that field then it can be expressed. -/
theorem field_conv {t : Rdf} {ts : List Rdf} {f w s : List UInt8} {tk toks : List (List UInt8)} (hf : FieldToks t f tk) (hfne : f ≠ [])
    (hT : Terminal t → w = []) (hr : RdataToks ts w toks) (hg : GoodTypes (t :: ts)) (hl : (f ++ w).length < 65536)
    (hs : Left s (tk ++ toks)) (h : Scanned (t :: ts) s (f ++ w)) : FieldExact t f w := by
  obtain ⟨b, s', f', rest, w', rfl, hb, hb', h1, h2, h3⟩ := scanned_split h (by simp [hfne])
  have hsp : t ≠ .typeBitmap → s' = spaced (tk ++ toks) := by
    intro ht
    obtain ⟨tok, tk', rfl, hst⟩ := fieldToks_head hf hfne ht
    obtain ⟨-, e⟩ := left_drop hs hst
    rw [dropSpace_blanks b hb hb'] at e
    rw [e, List.cons_append, spaced_tails]; rfl
  cases t with
  | rrtype =>
    cases h1 with
    | name hh => simp at hh
    | int hh => simp at hh
    | @rrtype _ _ _ t hw ht h0 =>
      rintro rfl
      have e : [0, 0] = net16 t := (List.append_inj h3 (by simp [net16])).1
      have := net16_eq (a := 0) (by decide) (typeReads_lt ht) e
      omega
  | typeBitmap =>
    have hts : ts = [] := hg.1 (Or.inl trivial)
    subst hts
    have hw : w = [] := hT trivial
    subst hw
    cases h2
    simp only [List.append_nil] at h3
    subst h3
    cases h1 with
    | name hh => simp at hh
    | int hh => simp at hh
    | bitmap _ hc =>
      obtain ⟨ws, a, b, -⟩ := hc
      exact ⟨ws, a, b⟩
  | svcparams =>
    have hts : ts = [] := hg.1 (Or.inl trivial)
    subst hts
    have hw : w = [] := hT trivial
    subst hw
    cases h2
    have htk := rdataToks_nil hr rfl
    subst htk
    simp only [List.append_nil] at h3 hs hl
    subst h3
    obtain ⟨ps, x1, x2, x3⟩ := hf
    cases h1 with
    | name hh => simp at hh
    | int hh => simp at hh
    | svcparams hv =>
      subst x2
      have hsv : SvcReads (spaced tk) (ps.flatMap encParam) := by
        have := hsp (by simp)
        rw [List.append_nil] at this
        rw [← this]; exact hv
      exact ⟨ps, fun p hp => ⟨(x1 p hp).1, (x1 p hp).2.1, params_conv x3 x1 hsv hl p hp⟩, rfl⟩
  | ipv6prefix =>
    obtain ⟨pl, sx, rfl, hpl, hsl, htk⟩ := hf
    have hts : ts = [.uname] := hg.2.1 rfl
    subst hts
    -- nothing follows a lone `128`
    have hlone : pl = 128 → w = [] → ∀ tok r, Word s' tok r → r = [] := by
      rintro rfl rfl tok r hw
      have hsx : sx = [] := List.eq_nil_of_length_eq_zero hsl
      have htoks := rdataToks_nil hr rfl
      subst hsx htoks
      rw [hsp (by simp), htk] at hw
      obtain ⟨e, -, hsep⟩ := hw
      have e' : spaced (decText (128 : UInt8).toNat :: (if ([] : List UInt8) = [] then [] else [ip6Text (List.replicate (16 - ([] : List UInt8).length) 0 ++ [])]) ++ []) = [49, 50, 56] := by
        decide +kernel
      rw [e'] at e
      cases r with
      | nil => rfl
      | cons c r =>
        have hc : Separator c := hsep c rfl
        have hm : c ∈ ([49, 50, 56] : List UInt8) := by rw [e]; simp
        simp only [List.mem_cons, List.not_mem_nil, or_false] at hm
        rcases hm with rfl | rfl | rfl <;> exact absurd hc (by decide)
    have hnil : ∀ a, ¬ Ip6Reads [] a := by
      intro a h
      rw [← inetPton6_iff] at h
      cases h
    cases h1 with
    | name hh => simp at hh
    | int hh => simp at hh
    | @prefixFull _ tok r b' s2 tok' r' pl' a e1 e2 e3 e4 e5 e6 e7 e8 e9 e10 =>
      have hpl' : pl' = pl.toNat := by
        simp only [List.cons_append] at h3
        have := congrArg UInt8.toNat (List.cons.inj h3).1
        rw [toNat_ofNat_lt (by omega)] at this
        exact this.symm
      subst hpl'
      have hal := ip6Reads_length e9
      have hww : w = w' := by
        refine (List.append_inj h3 ?_).2
        simp only [List.length_cons, List.length_drop]
        omega
      constructor
      · intro h0
        simp only [List.head?_cons, Option.some.injEq] at h0
        subst h0
        rw [if_pos (by rfl)] at h2
        rw [hww]
        exact scanned_blank h2
      · intro h0 hw0
        simp only [List.head?_cons, Option.some.injEq] at h0
        have hr0 := hlone h0 hw0 _ _ e1
        rw [hr0] at e5
        obtain ⟨-, rfl⟩ := List.append_eq_nil_iff.mp e5.symm
        obtain ⟨rfl, -⟩ := List.append_eq_nil_iff.mp e8.1.symm
        exact hnil _ e9
    | @prefixNone _ tok r b' s2 tok' r' e1 e2 e3 e4 e5 e6 e7 e8 e9 =>
      simp only [List.cons_append, List.nil_append] at h3
      obtain ⟨rfl, -⟩ := List.cons.inj h3
      constructor
      · intro h0; simp at h0
      · intro _ hw0
        have hr0 := hlone rfl hw0 _ _ e1
        rw [hr0] at e4
        exact absurd (List.append_eq_nil_iff.mp e4.symm).2 e6
  | _ => trivial

theorem tails_zero {toks : List (List UInt8)} (h : ∀ t ∈ toks, 0 ∉ t) : 0 ∉ tails toks := by
  induction toks with
  | nil => simp [tails]
  | cons t ts ih =>
    have e : tails (t :: ts) = 32 :: (t ++ tails ts) := rfl
    rw [e]
    simp only [List.mem_cons, List.mem_append, not_or]
    exact ⟨by decide, h t (by simp), ih fun x hx => h x (by simp [hx])⟩

theorem left_zero {s : List UInt8} {toks : List (List UInt8)} (h : ∀ t ∈ toks, 0 ∉ t) (hl : Left s toks) : 0 ∉ s := by
  rcases hl with rfl | rfl
  · exact tails_zero h
  · cases toks with
    | nil => simp [spaced]
    | cons t ts =>
      rw [spaced_tails, List.mem_append, not_or]
      exact ⟨h t (by simp), tails_zero fun x hx => h x (by simp [hx])⟩

theorem fields_conv {ts : List Rdf} {w : List UInt8} {toks : List (List UInt8)} (h : RdataToks ts w toks) :
    w.length < 65536 → (∀ t ∈ toks, 0 ∉ t) → GoodTypes ts → ∀ (p : Option (List UInt8)) (rest u : List UInt8), At p rest → Left rest toks →
      ∀ p', sFields ts p u = ok (.go p' (u ++ w)) → Exact ts w := by
  induction h with
  | done => intros; exact .done
  | @name t ts n w toks ht hn hr ih =>
    intro hlen h0 hg p rest u hp hl p' hs
    refine .name ht hn ?_
    obtain ⟨h1, h2⟩ := left_drop hl (starts_graphic (graphic_nameText n) (nameText_ne_nil n))
    have hp' : p = some rest := by
      rcases hp with h | ⟨_, h⟩
      · exact h
      · exact absurd h h1
    subst hp'
    obtain ⟨p1, h3, h4⟩ := scan_name ht hn (sep_tails toks) u
    rw [sFields_cons h2 (by simp [nameText_ne_nil]) h3, ← List.append_assoc] at hs
    simp only [List.length_append] at hlen
    exact ih (by omega) (fun t ht => h0 t (by simp [ht])) hg.2.2 p1 _ (u ++ wire n) h4 (Or.inl rfl) p' hs
  | @field t ts f w tk toks hf hne hT hr ih =>
    intro hlen h0 hg p rest u hp hl p' hs
    have hfo := fieldToks_ok hf
    have hfne : f ≠ [] := by
      by_cases h : Terminal t
      · rw [hT h, List.append_nil] at hne; exact hne
      · exact fieldOK_ne_nil hfo h
    have hx : FieldExact t f w := by
      obtain ⟨w2, hsc, e⟩ := (sFields_iff (t :: ts) rest u _ p (left_zero h0 hl) hp).mp ⟨p', hs⟩
      have := List.append_cancel_left e
      subst this
      exact field_conv hf hfne hT hr hg hlen hl hsc
    refine .field hfo hne hT hx ?_
    by_cases hter : Terminal t
    · rw [hT hter]; exact .done
    have hb : t ≠ .typeBitmap := by rintro rfl; exact hter trivial
    obtain ⟨tok, tk', rfl, hst⟩ := fieldToks_head hf hfne hb
    obtain ⟨h1, h2⟩ := left_drop hl hst
    have hp' : p = some rest := by
      rcases hp with h | ⟨_, h⟩
      · exact h
      · exact absurd h h1
    subst hp'
    obtain ⟨p1, h3, h4⟩ := field_scan hf hfne hb hT hx hr hg u
    rw [List.cons_append, spaced_tails] at h3
    rw [sFields_cons h2 hst.append.ne h3, ← List.append_assoc] at hs
    cases ts with
    | nil =>
      cases hr
      exact .done
    | cons t2 ts =>
      obtain ⟨r, h5, h6⟩ := h4 (by simp)
      simp only [List.length_append] at hlen
      exact ih (by omega) (fun t ht => h0 t (by rw [List.mem_append]; exact Or.inr ht)) hg.2.2 p1 r (u ++ f) h5 h6 p' hs

end Wdns
