import Verif.Spec.DowncaseAny
import Verif.Props.Downcase

/-!
# What `wdns_downcase_rdata` does to any rdata (C60)
-/

namespace Wdns
open Outcome Spec

theorem dnNameS_zero (a s : List UInt8) (h : 0 ∉ a) : dnNameS (a ++ 0 :: s) (a ++ 0 :: s).length = ok (a.map lower ++ [0], s, s.length) := by
  rw [List.length_append, dnNameS_bytes a (0 :: s) _ h]
  simp [dnNameS]

theorem dnNameS_endless (a : List UInt8) (h : 0 ∉ a) : dnNameS a a.length = ok (a.map lower, [], sizeMax) := by
  have := dnNameS_bytes a [] 0 h
  simpa [dnNameS] using this

/-- Field types that can occur in the layouts in question. -/
def DnKnown (t : Rdf) : Prop := t ≠ .eui64 ∧ t ≠ .ednsOptRdata

instance : DecidablePred DnKnown := fun t => by unfold DnKnown; infer_instance

theorem dnStop_iff {t : Rdf} (h : DnKnown t) : dnStop t = true ↔ Terminal t := by
  cases t <;> simp [dnStop, Terminal, DnKnown] at h ⊢

theorem dnAdv_taken {t : Rdf} {w : List UInt8} (h : DnKnown t) (hn : ¬ IsName t) (ht : ¬ Terminal t) (hw : w ≠ []) :
    dnAdv t w w.length = if t = .ipv6prefix ∧ 16 < (w.headD 0).toNat then ok none else ok (some (taken t w)) := by
  obtain ⟨c, w, rfl⟩ := List.exists_cons_of_ne_nil hw
  cases t <;> simp [Terminal, DnKnown, IsName] at h hn ht <;> simp [dnAdv, taken, rd]

theorem dnS_endless : ∀ (ts : List Rdf) (rem : Nat), (∀ t ∈ ts, t = .int32) → 4 * ts.length < rem → dnS ts [] rem = ok (.parseError, []) := by
  intro ts
  induction ts with
  | nil => intro rem _ h; rw [dnS, if_pos (by simp at h; omega)]
  | cons t ts ih =>
    intro rem h hl
    obtain rfl := h t (by simp)
    simp only [List.length_cons] at hl
    rw [dnS, if_neg (by omega), if_neg (by simp [IsName]), if_neg (by simp [dnStop])]
    simp only [dnAdv, ok_bind]
    rw [if_neg (by omega)]
    simp only [List.drop_nil, ih _ (fun t h' => h t (by simp [h'])) (show 4 * ts.length < rem - 4 by omega), ok_bind, List.take_nil, List.nil_append]

theorem split_zero : ∀ (w : List UInt8), 0 ∈ w → ∃ a s, w = a ++ 0 :: s ∧ 0 ∉ a := by
  intro w
  induction w with
  | nil => intro h; cases h
  | cons c w ih =>
    intro h
    by_cases hc : c = 0
    · exact ⟨[], w, by simp [hc], by simp⟩
    · obtain ⟨a, s, e, ha⟩ := ih ((List.mem_cons.mp h).resolve_left fun e => hc e.symm)
      exact ⟨c :: a, s, by simp [e], fun h' => (List.mem_cons.mp h').elim (fun e => hc e.symm) ha⟩

theorem dnS_downs {ts : List Rdf} {w w' : List UInt8} {res : Res} (h : Downs ts w res w') (hg : ∀ t ∈ ts, DnKnown t) (hl : ts.length ≤ 100) :
    dnS ts w w.length = ok (res, w') := by
  induction h with
  | @used ts => cases ts <;> simp [dnS]
  | @left w h => rw [dnS, if_pos (by simpa using h)]
  | @name t ts a s res s' h1 h2 h3 ih =>
    rw [dnS, if_neg (by simp), if_pos h1, dnNameS_zero a s h2]
    simp only [ok_bind, ih (fun t h => hg t (by simp [h])) (by simp at hl; omega), List.append_assoc, List.singleton_append]
  | @endless t ts a h1 h2 h3 h4 =>
    rw [dnS, if_neg (by simpa using h2), if_pos h1, dnNameS_endless a h3]
    simp only [List.length_cons] at hl
    simp only [ok_bind, dnS_endless ts sizeMax h4 (by unfold sizeMax; omega), List.append_nil]
  | @endlessOpen t t' ts a h1 h2 h3 h4 =>
    have hk := hg t' (by simp)
    have hn' : ¬ IsName t' := by cases t' <;> simp [Terminal, IsName] at h4 ⊢
    rw [dnS, if_neg (by simpa using h2), if_pos h1, dnNameS_endless a h3]
    simp only [ok_bind]
    rw [dnS, if_neg (by simp [sizeMax]), if_neg hn', if_pos ((dnStop_iff hk).2 h4)]
    simp
  | @openEnded t ts w h1 h2 =>
    have hn' : ¬ IsName t := by cases t <;> simp [Terminal, IsName] at h1 ⊢
    rw [dnS, if_neg (by simpa using h2), if_neg hn', if_pos ((dnStop_iff (hg t (by simp))).2 h1)]
  | @field t ts f s res s' h1 h2 h3 h4 h5 ih =>
    have hk := hg t (by simp)
    have hne : f ++ s ≠ [] := by
      intro e
      have : f = [] := (List.append_eq_nil_iff.mp e).1
      rw [e, this] at h4
      cases t <;> simp [taken] at h4
    rw [dnS, if_neg (by simpa using hne), if_neg h1, if_neg (by rw [dnStop_iff hk]; exact h2), dnAdv_taken hk h1 h2 hne, if_neg (fun h => absurd (h3 h.1) (by omega)), ok_bind]
    simp only
    rw [← h4, if_neg (by simp)]
    have e1 : (f ++ s).drop f.length = s := by simp
    have e2 : (f ++ s).length - f.length = s.length := by simp
    have e3 : (f ++ s).take f.length = f := by simp
    rw [e1, e2, ih (fun t h => hg t (by simp [h])) (by simp at hl; omega)]
    simp only [ok_bind, e3]
  | @short t ts w h1 h2 h3 h4 =>
    have hk := hg t (by simp)
    rw [dnS, if_neg (by simpa using h3), if_neg h1, if_neg (by rw [dnStop_iff hk]; exact h2), dnAdv_taken hk h1 h2 h3]
    by_cases h : t = .ipv6prefix ∧ 16 < (w.headD 0).toNat
    · rw [if_pos h, ok_bind]
    · rw [if_neg h, ok_bind]
      simp only
      rw [if_pos (h4.resolve_right h)]

/-- A name is followed by a name, by an open-ended field, or by four-octet integers up to the end. -/
def NameThen : List Rdf → Bool
  | [] => true
  | [_] => true
  | t :: t' :: ts => (if IsName t then decide (IsName t') || decide (Terminal t') || (t' :: ts).all (· == .int32) else true) && NameThen (t' :: ts)

theorem downs_total : ∀ (ts : List Rdf) (w : List UInt8), NameThen ts = true → (∀ t ∈ ts, DnKnown t) → dnS ts w w.length = ub ∨ ∃ res w', Downs ts w res w' := by
  intro ts
  induction ts with
  | nil =>
    intro w _ _
    by_cases hw : w = []
    · subst hw; exact .inr ⟨_, _, .used⟩
    · exact .inr ⟨_, _, .left hw⟩
  | cons t ts ih =>
    intro w hN hg
    have hN' : NameThen ts = true := by
      cases ts with
      | nil => rfl
      | cons t' ts => simp only [NameThen, Bool.and_eq_true] at hN; exact hN.2
    have hk := hg t (by simp)
    have ih := fun w => ih w hN' fun t h => hg t (by simp [h])
    by_cases hw : w = []
    · subst hw; exact .inr ⟨_, _, .used⟩
    by_cases h1 : IsName t
    · by_cases h0 : 0 ∈ w
      · obtain ⟨a, s, rfl, ha⟩ := split_zero w h0
        rcases ih s with h | ⟨res, s', h⟩
        · left
          rw [dnS, if_neg (by simp), if_pos h1, dnNameS_zero a s ha]
          simp only [ok_bind, h, ub_bind]
        · exact .inr ⟨_, _, .name h1 ha h⟩
      · cases ts with
        | nil => exact .inr ⟨_, _, .endless h1 hw h0 (by simp)⟩
        | cons t' ts =>
          simp only [NameThen, if_pos h1, Bool.and_eq_true, Bool.or_eq_true, decide_eq_true_eq] at hN
          rcases hN.1 with (h2 | h2) | h2
          · left
            rw [dnS, if_neg (by simpa using hw), if_pos h1, dnNameS_endless w h0]
            simp only [ok_bind]
            rw [dnS, if_neg (by simp [sizeMax]), if_pos h2]
            have : dnNameS [] sizeMax = ub := rfl
            rw [this, ub_bind, ub_bind]
          · exact .inr ⟨_, _, .endlessOpen h1 hw h0 h2⟩
          · exact .inr ⟨_, _, .endless h1 hw h0 fun x hx => by simpa using List.all_eq_true.mp h2 x hx⟩
    by_cases h2 : Terminal t
    · exact .inr ⟨_, _, .openEnded h2 hw⟩
    by_cases h3 : w.length < taken t w ∨ (t = .ipv6prefix ∧ 16 < (w.headD 0).toNat)
    · exact .inr ⟨_, _, .short h1 h2 hw h3⟩
    have e : w.take (taken t w) ++ w.drop (taken t w) = w := List.take_append_drop _ _
    rcases ih (w.drop (taken t w)) with h | ⟨res, s', h⟩
    · left
      rw [dnS, if_neg (by simpa using hw), if_neg h1, if_neg (by rw [dnStop_iff hk]; exact h2), dnAdv_taken hk h1 h2 hw, if_neg (fun h => h3 (.inr h)), ok_bind]
      simp only
      rw [if_neg (fun h => h3 (.inl h)), show w.length - taken t w = (w.drop (taken t w)).length by simp, h, ub_bind]
    · right
      have := Downs.field (f := w.take (taken t w)) (s := w.drop (taken t w)) h1 h2 (by rw [e]; exact fun h => Nat.le_of_not_lt fun h' => h3 (.inr ⟨h, h'⟩)) (by rw [e, List.length_take]; omega) h
      rw [e] at this
      exact ⟨_, _, this⟩

/-- **C60**: what `wdns_downcase_rdata` does to any octets, for every type whose names it lowers: the result code and the octets it leaves, unless its
behaviour is undefined (which it is exactly in the cases of `C60_memory_safe_partial`). -/
theorem C60_any_octets (r r' : CRdata) (ty cls : Nat) (d : Descr) (res : Res) (ht : ty ∈ canonicalTypes) (hd : recordDescr ty = some d) (ha : d.applies cls = true)
    (hr : r.data.length = r.len) : downcaseRdata r ty cls = ok (res, r') ↔ r'.len = r.len ∧ Downs d.types r.data res r'.data := by
  have hall : ∀ ty ∈ canonicalTypes, ∀ d ∈ recordDescr ty, NameThen d.types = true ∧ d.types.length ≤ 100 ∧ ∀ t ∈ d.types, DnKnown t := by decide +kernel
  obtain ⟨h1, h3, h2⟩ := hall ty ht d hd
  rw [downcaseRdata_known ht hd ha, ← hr]
  constructor
  · intro h
    obtain ⟨⟨res1, y⟩, e1, e2⟩ := bind_eq_ok.mp h
    cases e2
    refine ⟨rfl, ?_⟩
    rcases downs_total d.types r.data h1 h2 with h | ⟨res2, w', h⟩
    · rw [h] at e1; cases e1
    · have := dnS_downs h h2 h3
      rw [this] at e1; cases e1
      exact h
  · rintro ⟨e, h⟩
    rw [dnS_downs h h2 h3, ok_bind]
    cases r'
    simp only at e
    rw [e, hr]

/-- **C60**: its behaviour is undefined exactly for the octets to which `Downs` assigns nothing: some name of which no zero octet is left, before another name. -/
theorem C60_any_octets_undefined (r : CRdata) (ty cls : Nat) (d : Descr) (ht : ty ∈ canonicalTypes) (hd : recordDescr ty = some d) (ha : d.applies cls = true)
    (hr : r.data.length = r.len) : downcaseRdata r ty cls = ub ↔ ¬ ∃ res w', Downs d.types r.data res w' := by
  have hall : ∀ ty ∈ canonicalTypes, ∀ d ∈ recordDescr ty, NameThen d.types = true ∧ d.types.length ≤ 100 ∧ ∀ t ∈ d.types, DnKnown t := by decide +kernel
  obtain ⟨h1, h3, h2⟩ := hall ty ht d hd
  rw [downcaseRdata_known ht hd ha, ← hr]
  constructor
  · rintro h ⟨res, w', h'⟩
    rw [dnS_downs h' h2 h3, ok_bind] at h
    cases h
  · intro h
    rw [(downs_total d.types r.data h1 h2).resolve_right h, ub_bind]

/-- Cases of `C60_any_octets`: a CNAME, one with a zero octet in a label, an MX that is cut off, a SIG whose name does not end. -/
example : downcaseRdata ⟨3, [1, 65, 0]⟩ 5 1 = ok (.success, ⟨3, [1, 97, 0]⟩) ∧ downcaseRdata ⟨4, [2, 0, 65, 0]⟩ 5 1 = ok (.parseError, ⟨4, [2, 0, 65, 0]⟩) ∧
    downcaseRdata ⟨1, [0]⟩ 15 1 = ok (.parseError, ⟨1, [0]⟩) ∧ Downs [.name, .bytes] [1, 65] .success [1, 97] :=
  ⟨by decide +kernel, by decide +kernel, by decide +kernel, .endlessOpen (a := [1, 65]) trivial (by simp) (by decide) trivial⟩

end Wdns
