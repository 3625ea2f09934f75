import Verif.Lemmas.RenderSafe

/-! # Lemmas: the rdata printer on arbitrary octets, all fields -/

namespace Wdns
open Outcome Spec

/-- What rendering one field does to the octets `w` that remain. -/
def Tri (mem : List UInt8) (t : Rdf) (src : Nat) (w u : List UInt8) : Prop :=
  (∃ f rest src' u', w = f ++ rest ∧ Taken t f rest ∧ (rest ≠ [] → src' = src + f.length) ∧
    tField mem t ⟨src, w.length, u⟩ = ok (.go ⟨src', rest.length, u'⟩) ∧ Good u') ∨
  ((∀ f rest, w = f ++ rest → ¬ Taken t f rest) ∧ ¬ (IsName t ∧ Hanging w) ∧
    ∃ r u', tField mem t ⟨src, w.length, u⟩ = ok (.bad r u')) ∨
  (IsName t ∧ Hanging w ∧ (src + w.length = mem.length → tField mem t ⟨src, w.length, u⟩ = ub))

/-- A field of a fixed number of octets. -/
theorem tri_fixed {mem : List UInt8} {t : Rdf} {src : Nat} {w u : List UInt8} (n : Nat) (ht : ¬ IsName t)
    (hT : ∀ f rest, Taken t f rest ↔ f.length = n)
    (hshort : w.length < n → ∃ r u', tField mem t ⟨src, w.length, u⟩ = ok (.bad r u'))
    (hlong : ∀ f rest, w = f ++ rest → f.length = n →
      ∃ u', tField mem t ⟨src, w.length, u⟩ = ok (.go ⟨src + n, rest.length, u'⟩) ∧ Good u') : Tri mem t src w u := by
  by_cases h : w.length < n
  · refine Or.inr (Or.inl ⟨fun f rest e hx => ?_, fun hx => ht hx.1, hshort h⟩)
    rw [hT] at hx
    rw [e, List.length_append] at h; omega
  · obtain ⟨f, rest, rfl, hf⟩ := split_at_len (show n ≤ w.length by omega)
    obtain ⟨u', e, g⟩ := hlong f rest rfl hf
    exact Or.inl ⟨f, rest, _, u', rfl, (hT _ _).mpr hf, fun _ => by rw [hf], e, g⟩

theorem tri_verdict {mem : List UInt8} {t : Rdf} {src : Nat} {w u : List UInt8} {P : List UInt8 → Prop} (ht : ¬ IsName t)
    (hT : ∀ f rest, Taken t f rest ↔ P f ∧ rest = []) (h : Verdict (P w) (tField mem t ⟨src, w.length, u⟩)) : Tri mem t src w u := by
  rcases h with ⟨hp, src', u', e, g⟩ | ⟨hp, r, u', e⟩
  · refine Or.inl ⟨w, [], src', u', by simp, (hT _ _).mpr ⟨hp, rfl⟩, fun h => absurd rfl h, e, g⟩
  · refine Or.inr (Or.inl ⟨fun f rest hw hx => ?_, fun hx => ht hx.1, r, u', e⟩)
    obtain ⟨h1, rfl⟩ := (hT _ _).mp hx
    rw [List.append_nil] at hw
    exact hp (hw ▸ h1)

theorem tri_rest {mem : List UInt8} {t : Rdf} {src src' : Nat} {w u u' : List UInt8} (hT : ∀ f, Taken t f [])
    (h : tField mem t ⟨src, w.length, u⟩ = ok (.go ⟨src', 0, u'⟩)) (g : Good u') : Tri mem t src w u :=
  Or.inl ⟨w, [], src', u', by simp, hT w, fun h => absurd rfl h, h, g⟩

theorem need_short {st : TState} {n : Nat} {k : Outcome TRes} (h : st.bytes < (n : Int)) : need st n k = ok (.bad none st.u) := if_pos h
theorem need_long {st : TState} {n : Nat} {k : Outcome TRes} (h : ¬ st.bytes < (n : Int)) : need st n k = k := if_neg h

/-- A field with a length octet in front: string, salt, hash. -/
theorem tri_counted {mem : List UInt8} {t : Rdf} {src : Nat} {w u : List UInt8} (ht : ¬ IsName t) (hne : w ≠ [])
    (hT : ∀ f rest, Taken t f rest ↔ ∃ l s, f = l :: s ∧ s.length = l.toNat)
    (hshort : ∀ l v, w = l :: v → v.length < l.toNat → ∃ r u', tField mem t ⟨src, w.length, u⟩ = ok (.bad r u'))
    (hlong : ∀ l s rest, w = l :: (s ++ rest) → s.length = l.toNat →
      ∃ u', tField mem t ⟨src, w.length, u⟩ = ok (.go ⟨src + 1 + s.length, rest.length, u'⟩) ∧ Good u') : Tri mem t src w u := by
  obtain ⟨l, v, rfl⟩ := List.exists_cons_of_ne_nil hne
  by_cases h : v.length < l.toNat
  · refine Or.inr (Or.inl ⟨fun f rest e hx => ?_, fun hx => ht hx.1, hshort l v rfl h⟩)
    obtain ⟨l', s, rfl, hs⟩ := (hT _ _).mp hx
    simp only [List.cons_append, List.cons.injEq] at e
    obtain ⟨rfl, rfl⟩ := e
    rw [List.length_append] at h; omega
  · obtain ⟨s, rest, rfl, hs⟩ := split_at_len (show l.toNat ≤ v.length by omega)
    obtain ⟨u', e, g⟩ := hlong l s rest rfl hs
    refine Or.inl ⟨l :: s, rest, _, u', rfl, (hT _ _).mpr ⟨l, s, rfl, hs⟩, fun _ => ?_, e, g⟩
    simp only [List.length_cons]; omega

theorem good_eui {u : List UInt8} (hu : Good u) (f : List UInt8) :
    Good (u ++ List.intercalate [45] (f.map fun b => hexText false [b])) := by
  refine hu.append (good_plain ?_)
  refine Plain.intercalate (by decide) ?_
  intro t ht
  obtain ⟨b, _, rfl⟩ := List.mem_map.mp ht
  exact plain_hexText _ _

theorem tField_tri {mem : List UInt8} {t : Rdf} {src : Nat} {w u : List UInt8} (hw : Win mem src w) (hne : w ≠ [])
    (hlen : w.length < 65536) (hu : Good u) : Tri mem t src w u := by
  have hpos : 0 < w.length := List.length_pos_iff.mpr hne
  have hml := hw.len
  by_cases ht : IsName t
  · have hT : ∀ f rest, Taken t f rest ↔ ∃ n, WF n ∧ f = wire n := by
      intro f rest; cases t <;> first | rfl | exact absurd ht (by simp [IsName])
    rcases tField_name_tri ht hw hne hlen hu with ⟨n, rest, e, hn, h⟩ | ⟨h1, h2, h3⟩ | ⟨h1, h2⟩
    · refine Or.inl ⟨wire n, rest, _, _, e, (hT _ _).mpr ⟨n, hn, rfl⟩, fun _ => rfl, h, hu.append ?_⟩
      exact good_sp (printable_noNul (printable_nameText n)) (.nameText n)
    · refine Or.inr (Or.inl ⟨fun f rest e hx => ?_, fun h => h2 h.2, h3⟩)
      obtain ⟨n, hn, rfl⟩ := (hT _ _).mp hx
      exact h1 n rest e hn
    · exact Or.inr (Or.inr ⟨ht, h1, h2⟩)
  have hrest : rdRest mem ⟨src, w.length, u⟩ = ok w := by
    unfold rdRest
    rw [if_neg (by simp only; omega)]
    exact hw.rdN (by simp)
  have hint : ∀ (n : Nat) (f rest : List UInt8), w = f ++ rest → f.length = n → (w.length : Int) - n = rest.length := by
    intro n f rest e hf
    rw [e, List.length_append]; omega
  cases t with
  | name => exact absurd trivial ht
  | uname => exact absurd trivial ht
  | bytes =>
    refine tri_rest (u' := u ++ hexText true w) (src' := src + w.length) (fun f => rfl) ?_ (hu.append (good_plain (plain_hexText _ _)))
    simp only [tField, hrest, ok_bind, hexRun_eq true (show 3 ≤ 3 by omega)]
    rw [hexText_flatMap]
  | bytesB64 =>
    refine tri_rest (u' := u ++ base64 w) (src' := src) (fun f => rfl) ?_ (hu.append (good_plain (plain_base64 _)))
    have : ((w.length : Int) % 65536).toNat = w.length := by omega
    simp only [tField, this, hw.rdN rfl, ok_bind, bytesToBase64_eq]
  | bytesStr =>
    refine tri_rest (u' := u ++ (quoted w ++ [32])) (src' := src + w.length) (fun f => rfl) ?_ (hu.append (good_quoted w))
    simp only [tField, hrest, ok_bind, strQuoted_eq]
  | int8 =>
    refine tri_fixed 1 ht (fun _ _ => Iff.rfl) (fun h => by omega) ?_
    rintro f rest rfl hf
    obtain ⟨a, rfl⟩ := len_one hf
    refine ⟨u ++ decText a.toNat ++ [32], ?_, (hu.append (good_plain (plain_decText _))).append (by decide)⟩
    have ha := a.toNat_lt
    simp only [tField, need_long (show ¬ (⟨src, (([a] ++ rest).length : Nat), u⟩ : TState).bytes < ((1 : Nat) : Int) by simp; omega)]
    rw [Win.rd hw, ok_bind, decStr_eq (by omega) (by omega), ok_bind, ← hint 1 [a] rest rfl rfl]
    rfl
  | int16 =>
    refine tri_fixed 2 ht (fun _ _ => Iff.rfl) (fun h => ?_) ?_
    · simp only [tField]; rw [need_short (by simp only; omega)]; exact ⟨_, _, rfl⟩
    rintro f rest rfl hf
    obtain ⟨a, b, rfl⟩ := len_two hf
    refine ⟨u ++ decText (be16 a b) ++ [32], ?_, (hu.append (good_plain (plain_decText _))).append (by decide)⟩
    have ha := be16_lt a b
    simp only [tField]
    rw [need_long (by simp only [List.length_append, List.length_cons, List.length_nil]; omega), Win.rd hw, ok_bind, Win.rd (Win.tail hw), ok_bind,
      decStr_eq (by omega) (by omega), ok_bind, ← hint 2 [a, b] rest rfl rfl]
    rfl
  | rrtype =>
    refine tri_fixed 2 ht (fun _ _ => Iff.rfl) (fun h => ?_) ?_
    · simp only [tField]; rw [need_short (by simp only; omega)]; exact ⟨_, _, rfl⟩
    rintro f rest rfl hf
    obtain ⟨a, b, rfl⟩ := len_two hf
    refine ⟨typeTok u (be16 a b), ?_, good_typeTok hu _⟩
    simp only [tField]
    rw [need_long (by simp only [List.length_append, List.length_cons, List.length_nil]; omega), Win.rd hw, ok_bind, Win.rd (Win.tail hw), ok_bind,
      ← hint 2 [a, b] rest rfl rfl]
    rfl
  | int32 =>
    refine tri_fixed 4 ht (fun _ _ => Iff.rfl) (fun h => ?_) ?_
    · simp only [tField]; rw [need_short (by simp only; omega)]; exact ⟨_, _, rfl⟩
    rintro f rest rfl hf
    obtain ⟨a, b, c, d, rfl⟩ := len_four hf
    refine ⟨u ++ decText (be32 a b c d) ++ [32], ?_, (hu.append (good_plain (plain_decText _))).append (by decide)⟩
    have ha := be32_lt a b c d
    have e3 := Win.rd (Win.tail (Win.tail (Win.tail hw)))
    have e2 := Win.rd (Win.tail (Win.tail hw))
    simp only [tField]
    rw [need_long (by simp only [List.length_append, List.length_cons, List.length_nil]; omega), Win.rd hw, ok_bind, Win.rd (Win.tail hw), ok_bind,
      show src + 2 = src + 1 + 1 from rfl, e2, ok_bind, show src + 3 = src + 1 + 1 + 1 from rfl, e3, ok_bind,
      decStr_eq (by omega) (by omega), ok_bind, ← hint 4 [a, b, c, d] rest rfl rfl]
    rfl
  | ipv4 =>
    refine tri_fixed 4 ht (fun _ _ => Iff.rfl) (fun h => ?_) ?_
    · simp only [tField]; rw [need_short (by simp only; omega)]; exact ⟨_, _, rfl⟩
    rintro f rest rfl hf
    refine ⟨uAddCstr u (quadText ((mem.drop src).take 4)) ++ [32], ?_, ?_⟩
    · simp only [tField]
      rw [need_long (by simp only [List.length_append]; omega), inet4Ntop_quad (by rw [List.length_drop]; rw [List.length_append] at hml; omega) (by omega),
        ok_bind, ← hint 4 f rest rfl hf]
      rfl
    · rw [uAddCstr_clean hu.clean]
      exact (hu.append (good_plain (plain_dottedQuad _ _ _ _))).append (by decide)
  | ipv6 =>
    refine tri_fixed 16 ht (fun _ _ => Iff.rfl) (fun h => ?_) ?_
    · simp only [tField]; rw [need_short (by simp only; omega)]; exact ⟨_, _, rfl⟩
    rintro f rest rfl hf
    refine ⟨uAddCstr u (ip6Text ((mem.drop src).take 16)) ++ [32], ?_, ?_⟩
    · simp only [tField]
      rw [need_long (by simp only [List.length_append]; omega), inet6Ntop_ip6 (by rw [List.length_drop]; rw [List.length_append] at hml; omega) (by omega),
        ok_bind, ← hint 16 f rest rfl hf]
      rfl
    · rw [uAddCstr_clean hu.clean]
      exact (hu.append (good_plain (plain_ip6Text _))).append (by decide)
  | eui48 =>
    refine tri_fixed 6 ht (fun _ _ => Iff.rfl) (fun h => ?_) ?_
    · simp only [tField]; rw [need_short (by simp only; omega)]; exact ⟨_, _, rfl⟩
    rintro f rest rfl hf
    refine ⟨_, ?_, good_eui hu f⟩
    simp only [tField]
    rw [need_long (by simp only [List.length_append]; omega), hw.left.rdN hf.symm, ok_bind,
      euiRun_eq f u (by intro h; simp [h] at hf), ok_bind, ← hint 6 f rest rfl hf]
    rfl
  | eui64 =>
    refine tri_fixed 8 ht (fun _ _ => Iff.rfl) (fun h => ?_) ?_
    · simp only [tField]; rw [need_short (by simp only; omega)]; exact ⟨_, _, rfl⟩
    rintro f rest rfl hf
    refine ⟨_, ?_, good_eui hu f⟩
    simp only [tField]
    rw [need_long (by simp only [List.length_append]; omega), hw.left.rdN hf.symm, ok_bind,
      euiRun_eq f u (by intro h; simp [h] at hf), ok_bind, ← hint 8 f rest rfl hf]
    rfl
  | string =>
    refine tri_counted ht hne (fun _ _ => Iff.rfl) ?_ ?_
    · rintro l v rfl h
      rcases tString_tri hw hne hu with ⟨l', s, rest, e, hs, _⟩ | ⟨_, h⟩
      · simp only [List.cons.injEq] at e
        obtain ⟨rfl, rfl⟩ := e
        rw [List.length_append] at h; omega
      · exact h
    · rintro l s rest rfl hs
      rcases tString_tri hw hne hu with ⟨l', s', rest', e, hs', h⟩ | ⟨h, _⟩
      · simp only [List.cons.injEq] at e
        obtain ⟨rfl, e⟩ := e
        obtain ⟨rfl, rfl⟩ := List.append_inj e (by omega)
        refine ⟨_, ?_, hu.append (good_quoted s)⟩
        simp only [tField]
        rw [h, show src + (s.length + 1) = src + 1 + s.length by omega]
      · exact absurd hs (h l s rest rfl)
  | salt =>
    refine tri_counted ht hne (fun _ _ => Iff.rfl) ?_ ?_
    · rintro l v rfl h
      simp only [tField]
      rw [need_long (by simp only [List.length_cons]; omega), hw.rd, ok_bind, need_short (by simp only [List.length_cons]; omega)]
      exact ⟨_, _, rfl⟩
    · rintro l s rest rfl hs
      refine ⟨(if l.toNat = 0 then u ++ [45] else u) ++ hexText false s ++ [32], ?_, ?_⟩
      · simp only [tField]
        rw [need_long (by simp only [List.length_cons]; omega), hw.rd, ok_bind,
          need_long (by simp only [List.length_cons, List.length_append]; omega), hw.tail.left.rdN hs.symm, ok_bind,
          hexRun_eq false (show 3 ≤ 3 by omega), ok_bind, hexText_flatMap]
        congr 3
        · omega
        · simp only [List.length_cons, List.length_append]; omega
      · refine (Good.append ?_ (good_plain (plain_hexText _ _))).append (by decide)
        split
        · exact hu.append (by decide)
        · exact hu
  | hash =>
    refine tri_counted ht hne (fun _ _ => Iff.rfl) ?_ ?_
    · rintro l v rfl h
      simp only [tField]
      rw [need_long (by simp only [List.length_cons]; omega), hw.rd, ok_bind, need_short (by simp only [List.length_cons]; omega)]
      exact ⟨_, _, rfl⟩
    · rintro l s rest rfl hs
      by_cases h0 : l.toNat = 0
      · refine ⟨u ++ [48, 32], ?_, hu.append (by decide)⟩
        simp only [tField]
        rw [need_long (by simp only [List.length_cons]; omega), hw.rd, ok_bind,
          need_long (by simp only [List.length_cons, List.length_append]; omega), if_pos h0]
        congr 3
        · omega
        · simp only [List.length_cons, List.length_append]; omega
      · refine ⟨u ++ (base32 s).take (2 * l.toNat + 1) ++ [32], ?_, ?_⟩
        · simp only [tField]
          rw [need_long (by simp only [List.length_cons]; omega), hw.rd, ok_bind,
            need_long (by simp only [List.length_cons, List.length_append]; omega), if_neg h0, hw.tail.left.rdN hs.symm, ok_bind,
            base32Encode_eq _ _ (by intro h; rw [h] at hs; simp at hs; omega), ok_bind]
          congr 3
          · omega
          · simp only [List.length_cons, List.length_append]; omega
        · refine (hu.append (good_plain ?_)).append (by decide)
          intro b hb
          exact plain_base32 s b (List.mem_of_mem_take hb)
  | repstring => exact tri_verdict ht (fun _ _ => Iff.rfl) (tRepstring_verdict _ w src u hw (by simp) hu)
  | svcparams => exact tri_verdict ht (fun _ _ => Iff.rfl) (tSvcparams_verdict _ w src u hw (by simp) hu)
  | ednsOptRdata => exact tri_verdict ht (fun _ _ => Iff.rfl) (tEdns_verdict _ w src u hw (by simp) hu)
  | typeBitmap =>
    by_cases h2 : w.length < 2
    · refine Or.inr (Or.inl ⟨fun f rest e hx => ?_, fun hx => ht hx.1, ?_⟩)
      · obtain ⟨h1, hf, _⟩ := hx
        cases h1 with
        | nil => exact hf rfl
        | cons _ _ => rw [e] at h2; simp at h2; omega
      · simp only [tField]; rw [need_short (by simp only; omega)]; exact ⟨_, _, rfl⟩
    · have hb : tField mem .typeBitmap ⟨src, w.length, u⟩ = tBitmap mem (w.length + 1) ⟨src, w.length, u⟩ := by
        simp only [tField]; rw [need_long (by simp only; omega)]; simp
      rcases tBitmap_tri (w.length + 1) w src u hw (by omega) hu with ⟨f, rest, u', e, h1, h3, h4, g⟩ | ⟨h1, h3⟩
      · refine Or.inl ⟨f, rest, _, u', e, ⟨h1, ?_, h3⟩, fun _ => rfl, by rw [hb, h4], g⟩
        rintro rfl
        rw [e] at h2
        simp at h2; omega
      · exact Or.inr (Or.inl ⟨fun f rest e hx => h1 f rest e hx.1 hx.2.2, fun hx => ht hx.1, by rw [hb]; exact h3⟩)
  | ipv6prefix =>
    obtain ⟨pl, v, rfl⟩ := List.exists_cons_of_ne_nil hne
    have hoc := fun h : pl.toNat ≤ 128 => oclen_eq h
    have hnot : (¬ pl.toNat ≤ 128 ∨ v.length < (128 - pl.toNat + 7) / 8) → ∀ f rest, pl :: v = f ++ rest → ¬ Prefix6 f := by
      rintro h f rest e ⟨pl', s, rfl, h1, h2⟩
      simp only [List.cons_append, List.cons.injEq] at e
      obtain ⟨rfl, rfl⟩ := e
      rw [List.length_append] at h
      omega
    by_cases h128 : pl.toNat ≤ 128
    · by_cases hl : v.length < (128 - pl.toNat + 7) / 8
      · refine Or.inr (Or.inl ⟨hnot (Or.inr hl), fun hx => ht hx.1, ?_⟩)
        simp only [tField]
        rw [need_long (by simp only [List.length_cons]; omega), hw.rd, ok_bind, if_neg (by omega), hoc h128, need_short (by simp only [List.length_cons]; omega)]
        exact ⟨_, _, rfl⟩
      · obtain ⟨s, rest, rfl, hs⟩ := split_at_len (show (128 - pl.toNat + 7) / 8 ≤ v.length by omega)
        have hgp : Good (uAddCstr u (fmtU pl.toNat ++ [32])) := by
          rw [uAddCstr_clean hu.clean]
          rw [fmtU_eq]; exact hu.append (good_tok (plain_decText _))
        have hb : (((pl :: (s ++ rest)).length : Nat) : Int) - ((1 + (128 - pl.toNat + 7) / 8 : Nat) : Int) = rest.length := by
          simp only [List.length_cons, List.length_append]; omega
        have hgo : ∃ u', tField mem .ipv6prefix ⟨src, ((pl :: (s ++ rest)).length : Nat), u⟩ =
            ok (.go ⟨src + 1 + s.length, rest.length, u'⟩) ∧ Good u' := by
          simp only [tField]
          rw [need_long (by simp only [List.length_cons]; omega), hw.rd, ok_bind, if_neg (by omega), hoc h128, need_long (by simp only [List.length_cons, List.length_append]; omega),
            hw.tail.left.rdN hs.symm, ok_bind]
          by_cases hz : (128 - pl.toNat + 7) / 8 > 0
          · rw [if_pos hz, inet6Ntop_ip6 (by simp; omega) (by omega), ok_bind]
            refine ⟨uAddCstr (uAddCstr u (fmtU pl.toNat ++ [32]))
              (ip6Text ((List.replicate (16 - (128 - pl.toNat + 7) / 8) 0 ++ s).take 16)) ++ [32], ?_, ?_⟩
            · simp only [ok_bind]
              rw [← hs]
              congr 3
              simp only [List.length_cons, List.length_append]; omega
            · rw [uAddCstr_clean hgp.clean]
              exact (hgp.append (good_plain (plain_ip6Text _))).append (by decide)
          · rw [if_neg hz, ok_bind]
            refine ⟨_, ?_, hgp⟩
            rw [← hs]
            congr 3
            simp only [List.length_cons, List.length_append]; omega
        obtain ⟨u', e, g⟩ := hgo
        refine Or.inl ⟨pl :: s, rest, _, u', rfl, ⟨pl, s, rfl, h128, hs⟩, fun _ => ?_, e, g⟩
        simp only [List.length_cons]; omega
    · refine Or.inr (Or.inl ⟨hnot (Or.inl h128), fun hx => ht hx.1, ?_⟩)
      simp only [tField]
      rw [need_long (by simp only [List.length_cons]; omega), hw.rd, ok_bind, if_pos (by omega)]
      exact ⟨_, _, rfl⟩

/-! ## All fields -/

theorem anyWindows_det {f : List UInt8} (h : AnyWindows f) : ∀ {f' r r' : List UInt8}, AnyWindows f' → f ++ r = f' ++ r' →
    r.length ≤ 1 → r'.length ≤ 1 → f = f' := by
  induction h with
  | nil =>
    intro f' r r' h' e h1 h2
    cases h' with
    | nil => rfl
    | cons _ _ => have := congrArg List.length e; simp at this; omega
  | @cons a l s rest hs _ ih =>
    intro f' r r' h' e h1 h2
    cases h' with
    | nil => have := congrArg List.length e; simp at this; omega
    | @cons a' l' s' rest' hs' h3 =>
      simp only [List.cons_append, List.cons.injEq, List.append_assoc] at e
      obtain ⟨rfl, rfl, e⟩ := e
      obtain ⟨rfl, e2⟩ := List.append_inj e (by omega)
      rw [ih h3 e2 h1 h2]

theorem taken_det {t : Rdf} {f f' r r' : List UInt8} (h : Taken t f r) (h' : Taken t f' r') (e : f ++ r = f' ++ r') : f = f' ∧ r = r' := by
  have key : f.length = f'.length → f = f' ∧ r = r' := fun hl => List.append_inj e hl
  have counted : (∃ l s, f = l :: s ∧ s.length = l.toNat) → (∃ l s, f' = l :: s ∧ s.length = l.toNat) → f.length = f'.length := by
    rintro ⟨l, s, rfl, hs⟩ ⟨l', s', rfl, hs'⟩
    simp only [List.cons_append, List.cons.injEq] at e
    simp only [List.length_cons, hs, hs', e.1]
  have rest0 : r = [] → r' = [] → f = f' ∧ r = r' := by
    rintro rfl rfl
    simpa using e
  cases t
  case name | uname =>
    obtain ⟨n, hn, rfl⟩ := h
    obtain ⟨n', hn', rfl⟩ := h'
    obtain ⟨rfl, rfl⟩ := wire_append_inj hn.1 hn'.1 e
    exact ⟨rfl, rfl⟩
  case bytes | bytesB64 | bytesStr => exact rest0 h h'
  case int8 | int16 | int32 | rrtype | ipv4 | ipv6 | eui48 | eui64 => exact key (h.trans h'.symm)
  case string | salt | hash => exact key (counted h h')
  case repstring | svcparams | ednsOptRdata => exact rest0 h.2 h'.2
  case ipv6prefix =>
    obtain ⟨l, s, rfl, hl, hs⟩ := h
    obtain ⟨l', s', rfl, hl', hs'⟩ := h'
    simp only [List.cons_append, List.cons.injEq] at e
    exact key (by simp only [List.length_cons, hs, hs', e.1])
  case typeBitmap =>
    have := anyWindows_det h.1 h'.1 e h.2.2 h'.2.2
    subst this
    exact ⟨rfl, List.append_cancel_left e⟩

theorem hanging_not_taken' {t : Rdf} {w : List UInt8} (ht : IsName t) (h : Hanging w) : ∀ f rest, w = f ++ rest → ¬ Taken t f rest := by
  intro f rest e hx
  have hT : ∃ n, WF n ∧ f = wire n := by
    cases t <;> first | exact hx | exact absurd ht (by simp [IsName])
  obtain ⟨n, hn, rfl⟩ := hT
  exact hanging_not_taken h hn.1 e

theorem hanging_ne {w : List UInt8} (h : Hanging w) : w ≠ [] := by
  rintro rfl
  obtain ⟨n, h1, _, h3, _⟩ := h
  cases n with
  | nil => exact h1 rfl
  | cons l n => have := congrArg List.length h3; simp [wire] at this; exact wire_ne_nil n this.2

theorem shown_cons {t ts f rest} (hne : f ++ rest ≠ []) (h : Taken t f rest) : Shown (t :: ts) (f ++ rest) ↔ Shown ts rest := by
  constructor
  · intro hs
    generalize hw : f ++ rest = w at hs hne
    cases hs with
    | done => exact absurd rfl hne
    | @field _ _ f' rest' _ h1 h2 =>
      obtain ⟨_, rfl⟩ := taken_det h h1 hw
      exact h2
  · exact fun hs => .field hne h hs

theorem dangling_cons {t ts f rest} (hne : f ++ rest ≠ []) (h : Taken t f rest) : Dangling (t :: ts) (f ++ rest) ↔ Dangling ts rest := by
  constructor
  · intro hs
    generalize hw : f ++ rest = w at hs hne
    cases hs with
    | here h1 h2 => exact absurd h (hanging_not_taken' h1 h2 _ _ hw.symm)
    | @later _ _ f' rest' _ h1 h2 =>
      obtain ⟨_, rfl⟩ := taken_det h h1 hw
      exact h2
  · exact fun hs => .later hne h hs

theorem not_dangling_nil {ts : List Rdf} {w : List UInt8} (h : Dangling ts w) : w ≠ [] := by
  cases h with
  | here _ h => exact hanging_ne h
  | later h _ _ => exact h

theorem tFields_tri {mem : List UInt8} (ts : List Rdf) : ∀ (src : Nat) (w u : List UInt8), Win mem src w → w.length < 65536 → Good u →
    (Shown ts w ∧ ¬ Dangling ts w ∧ ∃ st, tFields mem ts ⟨src, w.length, u⟩ = ok (.go st) ∧ Good st.u) ∨
    (¬ Shown ts w ∧ ¬ Dangling ts w ∧ ∃ r u', tFields mem ts ⟨src, w.length, u⟩ = ok (.bad r u')) ∨
    (Dangling ts w ∧ ¬ Shown ts w ∧ (src + w.length = mem.length → tFields mem ts ⟨src, w.length, u⟩ = ub)) := by
  induction ts with
  | nil => intro src w u _ _ hu; exact Or.inl ⟨.over, nofun, _, rfl, hu⟩
  | cons t ts ih =>
    intro src w u hw hlen hu
    rw [tFields]
    by_cases hne : w = []
    · subst hne
      rw [if_pos (by simp)]
      exact Or.inl ⟨.done, fun h => not_dangling_nil h rfl, _, rfl, hu⟩
    have hpos : 0 < w.length := List.length_pos_iff.mpr hne
    rw [if_neg (by simp only; omega)]
    rcases tField_tri (t := t) hw hne hlen hu with ⟨f, rest, src', u', rfl, h1, h2, e, g⟩ | ⟨h1, h2, r, u', e⟩ | ⟨h1, h2, h3⟩
    · rw [e, ok_bind, shown_cons hne h1, dangling_cons hne h1]
      simp only
      by_cases hr : rest = []
      · subst hr
        refine Or.inl ⟨.done, fun h => not_dangling_nil h rfl, ?_⟩
        cases ts with
        | nil => exact ⟨_, rfl, g⟩
        | cons t' ts => exact ⟨_, by rw [tFields, if_pos (by simp)], g⟩
      · rw [h2 hr]
        rw [List.length_append] at hlen
        rcases ih (src + f.length) rest u' hw.right (by omega) g with h | h | ⟨h3, h4, h5⟩
        · exact Or.inl h
        · exact Or.inr (Or.inl h)
        · refine Or.inr (Or.inr ⟨h3, h4, fun hx => h5 ?_⟩)
          rw [List.length_append] at hx; omega
    · rw [e, ok_bind]
      refine Or.inr (Or.inl ⟨?_, ?_, r, u', rfl⟩)
      · intro h
        cases h with
        | done => exact hne rfl
        | field _ hx _ => exact h1 _ _ rfl hx
      · intro h
        cases h with
        | here ha hb => exact h2 ⟨ha, hb⟩
        | later _ hx _ => exact h1 _ _ rfl hx
    · refine Or.inr (Or.inr ⟨.here h1 h2, ?_, fun hx => by rw [h3 hx]; rfl⟩)
      intro h
      cases h with
      | done => exact hne rfl
      | field _ hx _ => exact hanging_not_taken' h1 h2 _ _ rfl hx

end Wdns
