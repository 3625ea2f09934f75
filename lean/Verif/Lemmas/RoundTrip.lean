import Verif.Lemmas.ScanSvc
import Verif.Lemmas.Descr

/-! Helper lemmas: reading back the text of a whole rdata. -/

namespace Wdns
open Outcome Spec

/-! ## decompositions are unique -/

theorem wire_append_inj : ∀ {m n : Name} {a b : List UInt8}, (∀ l ∈ m, LabelOK l) → (∀ l ∈ n, LabelOK l) →
    wire m ++ a = wire n ++ b → m = n ∧ a = b := by
  intro m
  induction m with
  | nil =>
    intro n a b _ hn h
    cases n with
    | nil => simpa [wire] using h
    | cons l n =>
      have := (hn l (by simp)).1
      have h2 := (hn l (by simp)).2
      simp only [wire, List.cons_append, List.nil_append, List.cons.injEq] at h
      have e := congrArg UInt8.toNat h.1
      rw [toNat_ofNat_lt (by omega)] at e
      simp at e
      rw [← e] at this
      simp at this
  | cons l m ih =>
    intro n a b hm hn h
    have l1 := (hm l (by simp)).1
    have l2 := (hm l (by simp)).2
    cases n with
    | nil =>
      simp only [wire, List.cons_append, List.nil_append, List.cons.injEq] at h
      have e := congrArg UInt8.toNat h.1
      rw [toNat_ofNat_lt (by omega)] at e
      simp at e
      rw [e] at l1
      simp at l1
    | cons l' n =>
      have k1 := (hn l' (by simp)).1
      have k2 := (hn l' (by simp)).2
      simp only [wire, List.cons_append, List.append_assoc, List.cons.injEq] at h
      have e := congrArg UInt8.toNat h.1
      rw [toNat_ofNat_lt (by omega), toNat_ofNat_lt (by omega)] at e
      obtain ⟨e1, e2⟩ := List.append_inj h.2 e
      obtain ⟨e3, e4⟩ := ih (fun x hx => hm x (by simp [hx])) (fun x hx => hn x (by simp [hx])) e2
      exact ⟨by rw [e1, e3], e4⟩

theorem encWindows_inj : ∀ {a b : List (UInt8 × List UInt8)}, (∀ w ∈ a, w.2.length ≤ 32) → (∀ w ∈ b, w.2.length ≤ 32) →
    a.flatMap encWindow = b.flatMap encWindow → a = b := by
  intro a
  induction a with
  | nil =>
    intro b _ _ h
    cases b with
    | nil => rfl
    | cons s b => simp [encWindow] at h
  | cons s a ih =>
    intro b ha hb h
    cases b with
    | nil => simp [encWindow] at h
    | cons s' b =>
      have h1 := ha s (by simp)
      have h2 := hb s' (by simp)
      simp only [List.flatMap_cons, encWindow, List.cons_append, List.cons.injEq] at h
      have hl : s.2.length = s'.2.length := by
        have := congrArg UInt8.toNat h.2.1
        rwa [toNat_ofNat_lt (by omega), toNat_ofNat_lt (by omega)] at this
      obtain ⟨e1, e2⟩ := List.append_inj h.2.2 hl
      rw [show s = s' from Prod.ext h.1 e1, ih (fun x hx => ha x (by simp [hx])) (fun x hx => hb x (by simp [hx])) e2]

theorem net16_eq {a b : Nat} (ha : a < 65536) (hb : b < 65536) (h : net16 a = net16 b) : a = b := by
  unfold net16 at h
  simp only [List.cons.injEq, and_true] at h
  rw [← be16_net16 ha, ← be16_net16 hb, h.1, h.2]

theorem encParams_inj : ∀ {a b : List (Nat × List UInt8)}, (∀ p ∈ a, p.1 < 65536 ∧ p.2.length < 65536) → (∀ p ∈ b, p.1 < 65536 ∧ p.2.length < 65536) →
    a.flatMap encParam = b.flatMap encParam → a = b := by
  intro a
  induction a with
  | nil =>
    intro b _ _ h
    cases b with
    | nil => rfl
    | cons s b => simp [encParam, net16] at h
  | cons s a ih =>
    intro b ha hb h
    cases b with
    | nil => simp [encParam, net16] at h
    | cons s' b =>
      obtain ⟨h1, h2⟩ := ha s (by simp)
      obtain ⟨h3, h4⟩ := hb s' (by simp)
      simp only [List.flatMap_cons, encParam, List.append_assoc] at h
      obtain ⟨e1, h⟩ := List.append_inj h (by simp [net16])
      obtain ⟨e2, h⟩ := List.append_inj h (by simp [net16])
      obtain ⟨e3, h⟩ := List.append_inj h (net16_eq h2 h4 e2)
      rw [show s = s' from Prod.ext (net16_eq h1 h3 e1) e3, ih (fun x hx => ha x (by simp [hx])) (fun x hx => hb x (by simp [hx])) h]

/-! ## fields with tokens are fields -/

theorem strings_of {ss : List (List UInt8)} (h : ∀ s ∈ ss, s.length < 256) : Strings (ss.flatMap encString) := by
  induction ss with
  | nil => exact .nil
  | cons s ss ih =>
    have hs := h s (by simp)
    rw [List.flatMap_cons]
    exact .cons (toNat_ofNat_lt hs).symm (ih fun s hs => h s (by simp [hs]))

theorem windows_of {ws : List (UInt8 × List UInt8)} (h : ∀ w ∈ ws, 1 ≤ w.2.length ∧ w.2.length ≤ 32) : Windows (ws.flatMap encWindow) := by
  induction ws with
  | nil => exact .nil
  | cons w ws ih =>
    obtain ⟨h1, h2⟩ := h w (by simp)
    have e : (UInt8.ofNat w.2.length).toNat = w.2.length := toNat_ofNat_lt (by omega)
    rw [List.flatMap_cons]
    exact .cons (by omega) (by omega) e.symm (ih fun s hs => h s (by simp [hs]))

theorem params_of {ps : List (Nat × List UInt8)} (h : ∀ p ∈ ps, p.1 < 65536 ∧ p.2.length < 65536 ∧ SvcValueOK p.1 p.2) : Params (ps.flatMap encParam) := by
  induction ps with
  | nil => exact .nil
  | cons p ps ih =>
    obtain ⟨h1, h2, h3⟩ := h p (by simp)
    rw [List.flatMap_cons]
    exact .cons (be16_net16 h2).symm (by rw [be16_net16 h1]; exact h3) (ih fun s hs => h s (by simp [hs]))

theorem fieldToks_ok {t : Rdf} {f : List UInt8} {tk : List (List UInt8)} (h : FieldToks t f tk) : FieldOK t f := by
  have hstr : (∃ s, s.length < 256 ∧ f = encString s) → ∃ l s, f = l :: s ∧ s.length = l.toNat := by
    rintro ⟨s, h1, rfl⟩
    exact ⟨_, _, rfl, (toNat_ofNat_lt h1).symm⟩
  cases t <;> simp only [FieldToks] at h <;> simp only [FieldOK]
  case int8 => obtain ⟨a, rfl, _⟩ := h; rfl
  case int16 => obtain ⟨a, b, rfl, _⟩ := h; rfl
  case int32 => obtain ⟨a, b, c, d, rfl, _⟩ := h; rfl
  case rrtype => obtain ⟨a, b, rfl, _⟩ := h; rfl
  case ipv4 => exact h.1
  case ipv6 => exact h.1
  case eui48 => exact h.1
  case eui64 => exact h.1
  case ipv6prefix => obtain ⟨pl, s, h1, h2, h3, _⟩ := h; exact ⟨pl, s, h1, h2, h3⟩
  case string => obtain ⟨s, h1, h2, _⟩ := h; exact hstr ⟨s, h1, h2⟩
  case salt => obtain ⟨s, h1, h2, _⟩ := h; exact hstr ⟨s, h1, h2⟩
  case hash => obtain ⟨s, h1, h2, _⟩ := h; exact hstr ⟨s, h1, h2⟩
  case repstring => obtain ⟨ss, h1, rfl, _⟩ := h; exact strings_of h1
  case typeBitmap => obtain ⟨ws, h1, rfl, _⟩ := h; exact windows_of h1
  case svcparams => obtain ⟨ps, h1, rfl, _⟩ := h; exact params_of h1

theorem rdataToks_nil {ts : List Rdf} {w : List UInt8} {toks : List (List UInt8)} (h : RdataToks ts w toks) (hw : w = []) : toks = [] := by
  cases h with
  | done => rfl
  | name _ _ _ => exact absurd (List.append_eq_nil_iff.mp hw).1 (wire_ne_nil _)
  | field _ h1 _ _ => exact absurd hw h1

/-! ## the text does not begin with white space -/

/-- Not empty and not beginning with white space. -/
def Starts (s : List UInt8) : Prop := ∃ c cs, s = c :: cs ∧ isSpace c = false

theorem starts_graphic {t : List UInt8} (h : Graphic t) (hne : t ≠ []) : Starts t := by
  cases t with
  | nil => exact absurd rfl hne
  | cons c cs => exact ⟨c, cs, rfl, isSpace_graphic (h c (by simp)).1⟩

theorem Starts.append {s rest : List UInt8} (h : Starts s) : Starts (s ++ rest) := by
  obtain ⟨c, cs, rfl, h⟩ := h
  exact ⟨c, cs ++ rest, rfl, h⟩

theorem Starts.drop {s : List UInt8} (h : Starts s) : s.dropWhile isSpace = s := by
  obtain ⟨c, cs, rfl, h⟩ := h
  simp [h]

theorem Starts.ne {s : List UInt8} (h : Starts s) : s ≠ [] := by
  obtain ⟨c, cs, rfl, _⟩ := h; simp

theorem starts_quoted (s : List UInt8) : Starts (quoted s) := ⟨34, _, by unfold quoted; rfl, rfl⟩

theorem left_drop {rest t : List UInt8} {ts : List (List UInt8)} (h : Left rest (t :: ts)) (ht : Starts t) :
    rest ≠ [] ∧ rest.dropWhile isSpace = t ++ tails ts := by
  have hs : (t ++ tails ts).dropWhile isSpace = t ++ tails ts := ht.append.drop
  rcases h with rfl | rfl
  · have e : tails (t :: ts) = 32 :: (t ++ tails ts) := rfl
    rw [e]
    refine ⟨by simp, ?_⟩
    rw [List.dropWhile_cons, if_pos (by rfl), hs]
  · rw [spaced_tails]
    exact ⟨ht.append.ne, hs⟩

theorem fieldOK_ne_nil {t : Rdf} {f : List UInt8} (h : FieldOK t f) (ht : ¬ Terminal t) : f ≠ [] := by
  rintro rfl
  cases t <;> first | exact ht trivial | exact h | (simp [FieldOK] at h; done) | skip
  obtain ⟨pl, s, h, _⟩ := h
  exact absurd h (by simp)

theorem paramToks_head {ps : List (Nat × List UInt8)} {toks : List (List UInt8)} (h : ParamToks ps toks) (hne : ps ≠ []) :
    ∃ t ts, toks = t :: ts ∧ Starts t := by
  have hk : ∀ k t, Starts (paramText k t) := fun k t => (starts_graphic (graphic_keyText k) (keyText_ne_nil k)).append
  cases h with
  | nil => exact absurd rfl hne
  | cons => exact ⟨_, _, rfl, hk _ _⟩
  | last => exact ⟨_, _, rfl, hk _ _⟩
  | glue => exact ⟨_, _, rfl, (hk _ _).append⟩

theorem eui_starts {f : List UInt8} (h : f ≠ []) : Starts (List.intercalate [45] (f.map fun b => hexText false [b])) := by
  cases f with
  | nil => exact absurd rfl h
  | cons b f =>
    have hg : Starts (hexText false [b]) := starts_graphic (graphic_hexText _ _) (by intro e; have := congrArg List.length e; rw [hexText_length] at this; simp at this)
    cases f with
    | nil => simpa [intercalate_one] using hg
    | cons b2 f =>
      simp only [List.map_cons]
      rw [intercalate_cons_cons]
      exact hg.append

theorem fieldToks_head {t : Rdf} {f : List UInt8} {tk : List (List UInt8)} (h : FieldToks t f tk) (hf : f ≠ []) (ht : t ≠ .typeBitmap) :
    ∃ tok ts, tk = tok :: ts ∧ Starts tok := by
  have hhex : ∀ u, hexText u f ≠ [] := by
    intro u e
    have := congrArg List.length e
    rw [hexText_length] at this
    have := List.length_pos_of_ne_nil hf
    simp at *
    omega
  cases t <;> simp only [FieldToks] at h
  case bytes => exact ⟨_, _, h, starts_graphic (graphic_hexText _ _) (hhex _)⟩
  case bytesB64 => exact ⟨_, _, h, starts_graphic (graphic_base64 _) (base64_ne_nil hf)⟩
  case bytesStr => exact ⟨_, _, h, starts_quoted _⟩
  case int8 => obtain ⟨a, _, h⟩ := h; exact ⟨_, _, h, starts_graphic (graphic_decText _) (decText_ne_nil _)⟩
  case int16 => obtain ⟨a, b, _, h⟩ := h; exact ⟨_, _, h, starts_graphic (graphic_decText _) (decText_ne_nil _)⟩
  case int32 => obtain ⟨a, b, c, d, _, h⟩ := h; exact ⟨_, _, h, starts_graphic (graphic_decText _) (decText_ne_nil _)⟩
  case ipv4 => exact ⟨_, _, h.2, starts_graphic (graphic_dottedQuad _ _ _ _) (quadText_ne_nil _)⟩
  case ipv6 => exact ⟨_, _, h.2, starts_graphic (graphic_ip6Text _) (ip6Text_ne_nil h.1)⟩
  case eui48 => exact ⟨_, _, h.2, eui_starts hf⟩
  case eui64 => exact ⟨_, _, h.2, eui_starts hf⟩
  case ipv6prefix => obtain ⟨pl, s, h1, h2, h3, h4⟩ := h; exact ⟨_, _, h4, starts_graphic (graphic_decText _) (decText_ne_nil _)⟩
  case string => obtain ⟨s, _, _, h⟩ := h; exact ⟨_, _, h, starts_quoted _⟩
  case rrtype =>
    obtain ⟨a, b, _, h⟩ := h
    exact ⟨_, _, h, starts_graphic (graphic_typeText _) (typeName_facts (typeName_typeText (be16_lt a b))).2.1⟩
  case salt =>
    obtain ⟨s, _, _, h⟩ := h
    refine ⟨_, _, h, ?_⟩
    split
    · exact ⟨45, [], rfl, rfl⟩
    · rename_i hs
      refine starts_graphic (graphic_hexText _ _) fun e => ?_
      have := congrArg List.length e
      rw [hexText_length] at this
      have := List.length_pos_of_ne_nil hs
      simp at *
      omega
  case hash =>
    obtain ⟨s, _, _, h⟩ := h
    refine ⟨_, _, h, ?_⟩
    split
    · exact ⟨48, [], rfl, rfl⟩
    · rename_i hs
      refine starts_graphic (graphic_base32 _) fun e => ?_
      have := base32_length_ge s hs
      rw [e] at this
      simp at this
  case repstring =>
    obtain ⟨ss, _, rfl, rfl⟩ := h
    cases ss with
    | nil => exact absurd rfl hf
    | cons s ss => exact ⟨_, _, rfl, starts_quoted _⟩
  case typeBitmap => exact absurd rfl ht
  case svcparams =>
    obtain ⟨ps, _, rfl, h⟩ := h
    exact paramToks_head h (by rintro rfl; exact hf rfl)

/-! ## one field -/

/-- Field lists as in the table: what extends to the end of the rdata or of the text is last; an A6 prefix is followed by
one name. -/
def GoodTypes : List Rdf → Prop
  | [] => True
  | t :: ts => (Terminal t ∨ t = .eui48 ∨ t = .eui64 → ts = []) ∧ (t = .ipv6prefix → ts = [.uname]) ∧ GoodTypes ts

def decGoodTypes : (ts : List Rdf) → Decidable (GoodTypes ts)
  | [] => .isTrue trivial
  | t :: ts =>
    have := decGoodTypes ts
    inferInstanceAs (Decidable ((Terminal t ∨ t = .eui48 ∨ t = .eui64 → ts = []) ∧ (t = .ipv6prefix → ts = [.uname]) ∧ GoodTypes ts))

instance : DecidablePred GoodTypes := decGoodTypes

theorem descr_good {ty : Nat} {d : Descr} (h : recordDescr ty = some d) : GoodTypes d.types := by
  have hall : ∀ ty < 258, ∀ d ∈ recordDescr ty, GoodTypes d.types := by decide +kernel
  exact hall ty (recordDescr_lt h) d h

theorem field_scan {t : Rdf} {ts : List Rdf} {f rest : List UInt8} {tk toks : List (List UInt8)} (h : FieldToks t f tk) (hf : f ≠ [])
    (ht : t ≠ .typeBitmap) (hT : Terminal t → rest = []) (hx : FieldExact t f rest) (hr : RdataToks ts rest toks) (hg : GoodTypes (t :: ts)) (u : List UInt8) :
    ∃ p, sField t (spaced (tk ++ toks)) u = ok (.go p (u ++ f)) ∧ (ts ≠ [] → ∃ r, At p r ∧ Left r toks) := by
  have htoks : Terminal t → toks = [] := fun h => rdataToks_nil hr (hT h)
  have heui : (t = .eui48 ∨ t = .eui64) → toks = [] := by
    intro h
    have : ts = [] := hg.1 (Or.inr h)
    subst this
    cases hr
    rfl
  have hs := sep_tails toks
  have one : ∀ {tok : List UInt8} {p : Option (List UInt8)}, tk = [tok] → At p (tails toks) → sField t (tok ++ tails toks) u = ok (.go p (u ++ f)) →
      ∃ p, sField t (spaced (tk ++ toks)) u = ok (.go p (u ++ f)) ∧ (ts ≠ [] → ∃ r, At p r ∧ Left r toks) := by
    intro tok p h1 h2 h3
    refine ⟨p, ?_, fun _ => ⟨_, h2, Or.inl rfl⟩⟩
    rw [h1, List.cons_append, List.nil_append, spaced_tails, h3]
  have last : ∀ {p : Option (List UInt8)}, Terminal t → sField t (spaced tk) u = ok (.go p (u ++ f)) →
      ∃ p, sField t (spaced (tk ++ toks)) u = ok (.go p (u ++ f)) ∧ (ts ≠ [] → ∃ r, At p r ∧ Left r toks) := by
    intro p h1 h2
    refine ⟨p, ?_, fun h => absurd (hg.1 (Or.inl h1)) h⟩
    rw [htoks h1, List.append_nil, h2]
  have sp1 : ∀ tok : List UInt8, spaced [tok] = tok := fun tok => by rw [spaced_tails]; simp [tails]
  cases t <;> simp only [FieldToks] at h
  case bytes => exact last trivial (by rw [h, sp1]; exact scan_bytes f u)
  case bytesB64 =>
    obtain ⟨p, hp⟩ := scan_b64 f u
    exact last trivial (by rw [h, sp1]; exact hp)
  case bytesStr => exact last trivial (by rw [h, sp1]; exact scan_bytesStr hf u)
  case int8 => obtain ⟨a, rfl, h⟩ := h; exact one h At.some (scan_int8 a hs u)
  case int16 => obtain ⟨a, b, rfl, h⟩ := h; exact one h At.some (scan_int16 a b hs u)
  case int32 => obtain ⟨a, b, c, d, rfl, h⟩ := h; exact one h At.some (scan_int32 a b c d hs u)
  case ipv4 => exact one h.2 At.some (scan_ipv4 h.1 hs u)
  case ipv6 =>
    obtain ⟨p, h1, h2⟩ := scan_ipv6 h.1 hs u
    exact one h.2 h2 h1
  case eui48 =>
    refine ⟨some [], ?_, fun hne => absurd (hg.1 (Or.inr (Or.inl rfl))) hne⟩
    rw [heui (Or.inl rfl), List.append_nil, h.2, sp1]
    have := scan_eui hf u
    rw [h.1] at this
    simp only [sField, this]
  case eui64 =>
    refine ⟨some [], ?_, fun hne => absurd (hg.1 (Or.inr (Or.inr rfl))) hne⟩
    rw [heui (Or.inr rfl), List.append_nil, h.2, sp1]
    have := scan_eui hf u
    rw [h.1] at this
    simp only [sField, this]
  case ipv6prefix =>
    obtain ⟨pl, s, rfl, h2, h3, h4⟩ := h
    simp only [FieldExact, List.head?_cons, Option.some.injEq] at hx
    have hts : ts = [.uname] := hg.2.1 rfl
    obtain ⟨p, r, e1, e2, e3⟩ := scan_prefix (toks := toks) h2 h3 (fun e => rdataToks_nil hr (hx.1 e)) (fun e => by
      have hne := hx.2 e
      subst hts
      cases hr with
      | done => exact absurd rfl hne
      | name _ _ _ => exact ⟨_, _, rfl⟩
      | field hb _ _ _ => exact absurd hb id) u
    rw [← h4] at e1
    exact ⟨p, e1, fun _ => ⟨r, e2, e3⟩⟩
  case string =>
    obtain ⟨s, h1, rfl, h⟩ := h
    exact one h At.some (scan_string h1 u)
  case salt =>
    obtain ⟨s, h1, rfl, h⟩ := h
    exact one h At.some (scan_salt h1 hs u)
  case hash =>
    obtain ⟨s, h1, rfl, h⟩ := h
    exact one h At.some (scan_hash h1 hs u)
  case rrtype =>
    obtain ⟨a, b, rfl, h⟩ := h
    have hne : be16 a b ≠ 0 := by
      intro e
      apply hx
      have : a.toNat = 0 ∧ b.toNat = 0 := by unfold be16 at e; omega
      rw [show a = 0 from UInt8.toNat.inj this.1, show b = 0 from UInt8.toNat.inj this.2]
    obtain ⟨p, h1, h2⟩ := scan_rrtype hne hs u
    exact one h h2 h1
  case repstring =>
    obtain ⟨ss, h1, rfl, rfl⟩ := h
    refine last (p := some []) trivial ?_
    simp only [sField]
    exact scan_repstring ss h1 u _ (Nat.le_refl _)
  case typeBitmap => exact absurd rfl ht
  case svcparams =>
    obtain ⟨ps, h1, rfl, h⟩ := h
    obtain ⟨ps', h2, h3⟩ := hx
    have e : ps = ps' := encParams_inj (fun p hp => ⟨(h1 p hp).1, (h1 p hp).2.1⟩) (fun p hp => ⟨(h2 p hp).1, (h2 p hp).2.1⟩) h3
    subst e
    refine last (p := some []) trivial ?_
    simp only [sField]
    exact scan_params h (fun p hp => ⟨(h1 p hp).1, (h1 p hp).2.1, (h1 p hp).2.2, (h2 p hp).2.2⟩) u _ (Nat.le_refl _)

/-! ## all fields -/

theorem sFields_cons {t : Rdf} {ts : List Rdf} {s s' u : List UInt8} (h : s.dropWhile isSpace = s') (hne : s' ≠ []) {p : Option (List UInt8)} {u' : List UInt8}
    (hf : sField t s' u = ok (.go p u')) : sFields (t :: ts) (some s) u = sFields ts p u' := by
  rw [sFields, h, if_neg hne, hf, ok_bind]

theorem fields_scan {ts : List Rdf} {w : List UInt8} {toks : List (List UInt8)} (h : RdataToks ts w toks) :
    Exact ts w → GoodTypes ts → ∀ (p : Option (List UInt8)) (rest u : List UInt8), At p rest → Left rest toks →
      ∃ p', sFields ts p u = ok (.go p' (u ++ w)) := by
  induction h with
  | @done ts =>
    intro _ _ p rest u hp hl
    have hr : rest = [] := by rcases hl with rfl | rfl <;> rfl
    subst hr
    rw [List.append_nil]
    cases ts with
    | nil => exact ⟨p, by rw [sFields]⟩
    | cons t ts =>
      rcases hp with rfl | ⟨rfl, -⟩
      · exact ⟨some [], by simp [sFields]⟩
      · exact ⟨none, by rw [sFields]⟩
  | @name t ts n w toks ht hn hr ih =>
    intro hx hg p rest u hp hl
    have hx' : Exact ts w := by
      generalize hw : wire n ++ w = x at hx
      cases hx with
      | done => exact absurd (List.append_eq_nil_iff.mp hw).1 (wire_ne_nil _)
      | name _ hn' hx' =>
        rw [(wire_append_inj hn.1 hn'.1 hw).2]
        exact hx'
      | field hf _ _ _ _ => cases t <;> first | exact absurd ht id | exact absurd hf id
    obtain ⟨h1, h2⟩ := left_drop hl (starts_graphic (graphic_nameText n) (nameText_ne_nil n))
    have hp' : p = some rest := by
      rcases hp with h | ⟨_, h⟩
      · exact h
      · exact absurd h h1
    subst hp'
    obtain ⟨p1, h3, h4⟩ := scan_name ht hn (sep_tails toks) u
    obtain ⟨p2, h5⟩ := ih hx' hg.2.2 p1 _ (u ++ wire n) h4 (Or.inl rfl)
    refine ⟨p2, ?_⟩
    rw [sFields_cons h2 (by simp [nameText_ne_nil]) h3, h5, List.append_assoc]
  | @field t ts f w tk toks hf hne hT hr ih =>
    intro hx hg p rest u hp hl
    have hfo := fieldToks_ok hf
    have hx' : FieldExact t f w ∧ Exact ts w := by
      generalize hw : f ++ w = x at hx
      cases hx with
      | done => exact absurd hw hne
      | name hn _ _ => cases t <;> first | exact absurd hn id | exact absurd hf id
      | field hf' _ hT' hx' hxx =>
        obtain ⟨rfl, rfl⟩ := fieldOK_unique hfo hf' hT hT' hw
        exact ⟨hx', hxx⟩
    have hfne : f ≠ [] := by
      by_cases h : Terminal t
      · rw [hT h, List.append_nil] at hne; exact hne
      · exact fieldOK_ne_nil hfo h
    by_cases hb : t = .typeBitmap
    · subst hb
      have hts : ts = [] := hg.1 (Or.inl trivial)
      have hw : w = [] := hT trivial
      subst hts hw
      have htk := rdataToks_nil hr rfl
      subst htk
      obtain ⟨ws, hws, rfl, rfl⟩ := hf
      obtain ⟨ws', hc, e⟩ := hx'.1
      have e' : ws = ws' := encWindows_inj (fun w hw => (hws w hw).2) (fun w hw => (hc.2 w hw).2.1) e
      subst e'
      have htl := typeList_spaced _ (windowTypes_lt (ws := ws) fun w hw => (hws w hw).2)
      rw [List.append_nil] at hl
      have htl' : TypeList rest (ws.flatMap windowTypes) := by
        rcases hl with rfl | rfl
        · cases hm : (ws.flatMap windowTypes) with
          | nil => exact .nil
          | cons a l =>
            rw [hm] at htl
            have : tails (List.map typeText (a :: l)) = 32 :: spaced (List.map typeText (a :: l)) := by
              rw [List.map_cons, spaced_tails]; rfl
            rw [this]
            exact .blank (Or.inl rfl) htl
        · exact htl
      rcases hp with rfl | ⟨rfl, rfl⟩
      · obtain ⟨p, f', e1, e2⟩ := sFields_bitmap htl' u
        have : f' = ws.flatMap encWindow := canonBitmap_unique e2 ⟨ws, hc, rfl, fun _ => Iff.rfl⟩ fun _ => Iff.rfl
        subst this
        exact ⟨p, by rw [e1, List.append_nil]⟩
      · obtain ⟨p, f', e1, e2⟩ := sFields_bitmap htl' u
        have : f' = ws.flatMap encWindow := canonBitmap_unique e2 ⟨ws, hc, rfl, fun _ => Iff.rfl⟩ fun _ => Iff.rfl
        have hu : f' = [] := by
          simp only [sFields, List.dropWhile_nil, if_true, ok.injEq, FRes.go.injEq] at e1
          have := congrArg List.length e1.2
          simp at this
          exact this
        rw [← this, hu]
        exact ⟨none, by simp [sFields]⟩
    · obtain ⟨tok, tk', rfl, hst⟩ := fieldToks_head hf hfne hb
      obtain ⟨h1, h2⟩ := left_drop hl hst
      have hp' : p = some rest := by
        rcases hp with h | ⟨_, h⟩
        · exact h
        · exact absurd h h1
      subst hp'
      obtain ⟨p1, h3, h4⟩ := field_scan hf hfne hb hT hx'.1 hr hg u
      rw [List.cons_append, spaced_tails] at h3
      rw [sFields_cons h2 hst.append.ne h3]
      cases ts with
      | nil =>
        cases hr
        exact ⟨p1, by rw [sFields, List.append_nil]⟩
      | cons t2 ts =>
        obtain ⟨r, h5, h6⟩ := h4 (by simp)
        obtain ⟨p2, h7⟩ := ih hx'.2 hg.2.2 p1 r (u ++ f) h5 h6
        exact ⟨p2, by rw [h7, List.append_assoc]⟩

end Wdns
