import Verif.Lemmas.ScanFaults
import Verif.Props.ScanGrammar
import Verif.Props.ScanSafe

/-!
# C69 exactly, and C101 for texts

For every text, type and class: whether the text is read, rejected with which code, or whether its reading is not defined.
-/

namespace Wdns
open Outcome Spec

theorem reads_ok {s : List UInt8} {o : Outcome FRes} {P : Prop} (h : Reads s o) (hP : ¬ P) : Fate o P := by
  obtain ⟨r, h, _⟩ := h
  exact .inr ⟨⟨r, h⟩, hP⟩

theorem nameCase_ends (s : List UInt8) (h0 : 0 ∉ s) : strToNameCase s ≠ hang ∧ strToNameCase s ≠ abort := by
  by_cases hne : s = []
  · subst hne; decide
  by_cases hdot : s = [46]
  · subst hdot; decide
  obtain ⟨f1, f2, f3⟩ := stn_faults (dc := false) h0 hne hdot
  have e : strToNameCase s = strToNameGen s false := rfl
  rw [e]
  rcases stn_all (dc := false) hne with ⟨n, h1, h2⟩ | h | h | h
  · rw [(strToNameGen_exact s false h0 _).mpr ⟨n, h1, h2, rfl⟩]; simp
  · rw [f1 h]; simp
  · rw [f2 h]; simp
  · rw [f3 h]; simp

theorem labelReads_le {f : UInt8 → UInt8} {t : List UInt8} {l : Label} (h : LabelReads f t l) : l.length ≤ t.length := by
  induction h with
  | nil => simp
  | plain _ _ _ ih => simp; omega
  | esc _ _ ih => simp; omega
  | ddd _ _ _ _ _ ih => simp; omega

theorem beginsAs_used {f : UInt8 → UInt8} {t : List UInt8} {n : Name} {l : Label} (h : BeginsAs f t n l) : octetsUsed n l ≤ t.length + 1 := by
  induction h with
  | inside h => have := labelReads_le h; simp [octetsUsed]; omega
  | dot h _ _ ih => have := labelReads_le h; simp [octetsUsed] at ih ⊢; omega

theorem name_field_fate {t : Rdf} (ht : t = .name ∨ t = .uname) {s : List UInt8} (h0 : 0 ∉ s) (u : List UInt8) : Fate (sField t s u) (FieldUndefined t s) := by
  have h0' : 0 ∉ tokOf s := fun h => h0 (tokOf_mem h)
  have e : sField t s u = sField .name s u := by rcases ht with rfl | rfl <;> rfl
  have hP : FieldUndefined t s ↔ EndsEscaping id (tokOf s) := by
    constructor
    · intro h
      rcases ht with rfl | rfl <;> cases h with
      | name _ hw h => obtain ⟨rfl, rfl⟩ := (word_iff _ _ _).mp hw; exact h
    · intro h; exact .name ht (word_self s) h
  rw [e]
  simp only [sField]
  have hub := (C18_scan_exactly (tokOf s) h0').2
  rw [← hP] at hub
  cases h : strToNameCase (tokOf s) with
  | ok n => exact .ok (fun hp => by rw [h] at hub; exact absurd (hub.mpr hp) (by simp))
  | err r => exact .ok (fun hp => by rw [h] at hub; exact absurd (hub.mpr hp) (by simp))
  | ub => exact .ub (hub.mp h)
  | hang => exact absurd h (nameCase_ends _ h0').1
  | abort => exact absurd h (nameCase_ends _ h0').2

theorem field_fate {t : Rdf} {s : List UInt8} (h : s ≠ []) (hs : ∀ c, s.head? = some c → ¬ IsBlank c) (h0 : 0 ∉ s) (u : List UInt8) :
    Fate (sField t s u) (FieldUndefined t s) := by
  have hs' : ∀ c, s.head? = some c → isSpace c = false := by
    intro c hc
    have := hs c hc
    rw [← isSpace_iff] at this
    simpa using this
  have no : (t ≠ .name ∧ t ≠ .uname ∧ t ≠ .bytes ∧ t ≠ .bytesB64 ∧ t ≠ .salt ∧ t ≠ .svcparams) → ¬ FieldUndefined t s := by
    rintro ⟨h1, h2, h3, h4, h5, h6⟩ hp
    cases hp with
    | name h => rcases h with h | h <;> contradiction
    | _ => contradiction
  have eui : ∀ n, Fate (sEui n s u) False := by
    intro n
    unfold sEui
    split
    · exact .ok id
    · split <;> exact .ok id
  cases t with
  | name => exact name_field_fate (.inl rfl) h0 u
  | uname => exact name_field_fate (.inr rfl) h0 u
  | bytes =>
    refine (sBytes_fate s u).congr ⟨fun ⟨w, rest, h1, h2, h3⟩ => .bytes h1 h2 h3, fun h => ?_⟩
    cases h with
    | name h => rcases h with h | h <;> cases h
    | bytes h1 h2 h3 => exact ⟨_, _, h1, h2, h3⟩
  | bytesB64 =>
    simp only [sField]
    refine ((base64_fate s).bind (Q := fun _ => False) (fun a _ => .ok id)).congr ⟨?_, fun h => ?_⟩
    · rintro (h | ⟨_, _, h⟩)
      · exact .bytesB64 h
      · exact h.elim
    · cases h with
      | name h => rcases h with h | h <;> cases h
      | bytesB64 h => exact .inl h
  | bytesStr =>
    simp only [sField]
    split
    · split <;> exact .ok (no (by decide))
    · exact .ok (no (by decide))
  | ipv6prefix => exact reads_ok (sPrefix_safe h hs') (no (by decide))
  | salt =>
    simp only [sField]
    have inv : FieldUndefined .salt s → tokOf s ≠ [45] ∧ (tokOf s).length ≤ 510 ∧ (tokOf s).length % 2 = 0 ∧
        ∃ w rest, HexPairs s w rest ∧ 2 * w.length < (tokOf s).length ∧ ∀ c ∈ rest, IsBlank c := by
      intro h
      cases h with
      | name h => rcases h with h | h <;> cases h
      | salt hw h1 h2 h3 h4 h5 h6 =>
        obtain ⟨rfl, rfl⟩ := (word_iff _ _ _).mp hw
        exact ⟨h1, h2, h3, _, _, h4, h5, h6⟩
    split
    · rename_i h45
      exact .ok (fun h => (inv h).1 h45)
    · rename_i h45
      split
      · rename_i hl
        exact .ok (fun h => by have := inv h; omega)
      · rename_i hl
        refine (sSalt_fate ((tokOf s).length / 2) s _ (by have := tok_length s; omega)).congr ⟨?_, fun h => ?_⟩
        · rintro ⟨w, rest, h1, h2, h3⟩
          exact .salt (word_self s) h45 (by omega) (by omega) h1 (by omega) h3
        · obtain ⟨_, _, h1, w, rest, h2, h3, h4⟩ := inv h
          exact ⟨w, rest, h2, by omega, h4⟩
  | hash =>
    simp only [sField]
    split
    · exact .ok (no (by decide))
    · split
      · exact .ok (no (by decide))
      · split <;> exact .ok (no (by decide))
  | int8 => exact reads_ok (sInt_safe h hs') (no (by decide))
  | int16 => exact reads_ok (sInt_safe h hs') (no (by decide))
  | int32 => exact reads_ok (sInt_safe h hs') (no (by decide))
  | ipv4 =>
    simp only [sField]
    split <;> exact .ok (no (by decide))
  | ipv6 =>
    simp only [sField]
    split <;> exact .ok (no (by decide))
  | eui48 => exact (eui 6).congr ⟨False.elim, no (by decide)⟩
  | eui64 => exact (eui 8).congr ⟨False.elim, no (by decide)⟩
  | string =>
    simp only [sField]
    split <;> exact .ok (no (by decide))
  | repstring =>
    obtain ⟨r, hr⟩ := sRepstring_safe (s.length + 1) s u (by omega)
    exact .inr ⟨⟨r, hr⟩, no (by decide)⟩
  | rrtype =>
    obtain ⟨t, -, ht, -⟩ := C47_str_to_rrtype_total (tokOf s)
    simp only [sField]
    rw [ht, ok_bind]
    split <;> exact .ok (no (by decide))
  | svcparams =>
    refine (sSvcparams_fate (s.length + 1) s u (by omega)).congr ⟨.svcparams, fun h => ?_⟩
    cases h with
    | name h => rcases h with h | h <;> cases h
    | svcparams h => exact h
  | typeBitmap =>
    obtain ⟨r, hr⟩ := sTypes_safe (s.length + 2) s (by omega)
    simp only [sField]
    unfold sBitmap
    rw [hr, ok_bind]
    split <;> exact .ok (no (by decide))
  | ednsOptRdata => exact .ok (no (by decide))

/-- A name field that is too long. -/
theorem field_tooLong {t : Rdf} {s : List UInt8} (h : s ≠ []) (hs : ∀ c, s.head? = some c → ¬ IsBlank c) (h0 : 0 ∉ s) (u : List UInt8) :
    (∃ u', sField t s u = ok (.bad .nameOverflow u')) ↔ FieldTooLong t s := by
  have hs' : ∀ c, s.head? = some c → isSpace c = false := by
    intro c hc
    have := hs c hc
    rw [← isSpace_iff] at this
    simpa using this
  by_cases ht : t = .name ∨ t = .uname
  · have h0' : 0 ∉ tokOf s := fun h => h0 (tokOf_mem h)
    have e : sField t s u = sField .name s u := by rcases ht with rfl | rfl <;> rfl
    have hP : FieldTooLong t s ↔ TooLong id (tokOf s) := by
      constructor
      · rintro ⟨_, tok, rest, hw, h⟩
        obtain ⟨rfl, rfl⟩ := (word_iff _ _ _).mp hw; exact h
      · intro h; exact ⟨ht, _, _, word_self s, h⟩
    have hv : strToNameCase (tokOf s) = err .nameOverflow ↔ TooLong id (tokOf s) := by
      by_cases hdot : tokOf s = [46]
      · rw [hdot]
        have h1 : strToNameCase [46] ≠ err .nameOverflow := by decide
        refine ⟨fun h => absurd h h1, ?_⟩
        rintro ⟨t, rest, n, l, e1, hb, hu, -⟩
        have := beginsAs_used hb
        have := congrArg List.length e1
        simp at this; omega
      · exact (C70_case_faults _ h0' (tok_ne_nil h hs') hdot).1
    rw [e, hP, ← hv]
    simp only [sField]
    cases strToNameCase (tokOf s) <;> simp
  · refine ⟨?_, fun h => absurd h.1 ht⟩
    rintro ⟨u', hu⟩
    have := (sField_fin t s u).bads _ _ hu
    cases t <;> simp [fieldTextCodes] at this ht

/-- Reading up to a field with the outcome `Q`. -/
theorem fields_upTo {Q : Outcome FRes → Prop} {P : Rdf → List UInt8 → Prop} (hgo : ∀ p u, ¬ Q (ok (.go p u)))
    (hP : ∀ t s u, s ≠ [] → (∀ c, s.head? = some c → ¬ IsBlank c) → 0 ∉ s → (Q (sField t s u) ↔ P t s)) :
    ∀ (ts : List Rdf) (s u : List UInt8) (p : Option (List UInt8)), 0 ∉ s → At p s → (Q (sFields ts p u) ↔ UpTo P ts s) := by
  intro ts
  induction ts with
  | nil =>
    intro s u p _ _
    rw [sFields]
    exact ⟨fun h => absurd h (hgo _ _), fun h => by cases h⟩
  | cons t ts ih =>
    intro s u p h0 hp
    have hblank : s.dropWhile isSpace = [] → ¬ UpTo P (t :: ts) s := by
      intro hb h
      have hb := (allBlank_iff s).mpr hb
      cases h with
      | @here _ _ b s hb' hne hh _ =>
        cases s with
        | nil => exact hne rfl
        | cons c s => exact hh c rfl (hb c (by simp))
      | @later _ _ b s _ _ hb' hne hh _ _ =>
        cases s with
        | nil => exact hne rfl
        | cons c s => exact hh c rfl (hb c (by simp))
    rcases hp with rfl | ⟨rfl, rfl⟩
    · simp only [sFields]
      by_cases hs : s.dropWhile isSpace = []
      · rw [if_pos hs]
        exact ⟨fun h => absurd h (hgo _ _), fun h => absurd h (hblank hs)⟩
      · rw [if_neg hs]
        obtain ⟨b, e1, e2, e3⟩ := (dropSpace_iff s _).mp rfl
        have h0' : 0 ∉ s.dropWhile isSpace := fun hm => h0 ((List.dropWhile_sublist _).subset hm)
        have hq := hP t _ u hs e3 h0'
        have inv : UpTo P (t :: ts) s ↔ P t (s.dropWhile isSpace) ∨ ∃ f rest, FieldReads t (s.dropWhile isSpace) f rest ∧ UpTo P ts rest := by
          constructor
          · intro h
            generalize hs0 : s = s0 at h
            cases h with
            | @here _ _ b' s1 hb' hne hh h =>
              have : s.dropWhile isSpace = s1 := (dropSpace_iff s s1).mpr ⟨b', hs0, hb', hh⟩
              rw [← hs0, this]; exact .inl h
            | @later _ _ b' s1 f rest hb' hne hh hf h =>
              have : s.dropWhile isSpace = s1 := (dropSpace_iff s s1).mpr ⟨b', hs0, hb', hh⟩
              rw [← hs0, this]; exact .inr ⟨f, rest, hf, h⟩
          · rintro (h | ⟨f, rest, hf, h⟩)
            · rw [e1]; exact .here e2 hs e3 h
            · rw [e1]; exact .later e2 hs e3 hf h
        rw [inv, ← hq]
        have stop : (∀ p u', sField t (s.dropWhile isSpace) u ≠ ok (.go p u')) →
            ((Q (sField t (s.dropWhile isSpace) u) ∨ ∃ f rest, FieldReads t (s.dropWhile isSpace) f rest ∧ UpTo P ts rest) ↔ Q (sField t (s.dropWhile isSpace) u)) := by
          intro hno
          refine or_iff_left ?_
          rintro ⟨f, rest, hf, _⟩
          obtain ⟨p', _, hr⟩ := (field_iff hs e3 h0' u rest _).mpr ⟨f, hf, rfl⟩
          exact hno _ _ hr
        cases hr : sField t (s.dropWhile isSpace) u with
        | ok r =>
          cases r with
          | go p' u1 =>
            rw [ok_bind]
            simp only
            obtain ⟨rest, hat⟩ : ∃ rest, At p' rest := by
              cases p' with
              | none => exact ⟨[], at_none.mpr rfl⟩
              | some x => exact ⟨x, at_some.mpr rfl⟩
            obtain ⟨f, hf, rfl⟩ := (field_iff hs e3 h0' u rest u1).mp ⟨p', hat, hr⟩
            have hsuf := fieldReads_suffix hf
            rw [ih rest _ p' (fun hm => h0' (hsuf.subset hm)) hat, or_iff_right (hgo _ _)]
            constructor
            · intro h; exact ⟨f, rest, hf, h⟩
            · rintro ⟨f', rest', hf', h⟩
              obtain ⟨p2, hat2, hr2⟩ := (field_iff hs e3 h0' u rest' _).mpr ⟨f', hf', rfl⟩
              rw [hr] at hr2
              simp only [ok.injEq, FRes.go.injEq] at hr2
              rw [← hr2.1] at hat2
              have : rest' = rest := by
                cases p' with
                | none => rw [at_none] at hat hat2; rw [hat, hat2]
                | some x => rw [at_some] at hat hat2; rw [hat, hat2]
              rw [← this]; exact h
          | bad e u' =>
            rw [hr] at stop
            rw [stop (by simp), ok_bind]
        | err e => rw [hr] at stop; rw [stop (by simp), err_bind]
        | ub => rw [hr] at stop; rw [stop (by simp), ub_bind]
        | hang => rw [hr] at stop; rw [stop (by simp)]; rfl
        | abort => rw [hr] at stop; rw [stop (by simp)]; rfl
    · simp only [sFields]
      exact ⟨fun h => absurd h (hgo _ _), fun h => absurd h (hblank rfl)⟩

theorem unknown_fate (s u : List UInt8) : Fate (sUnknown s u) (∃ b, s = ascii "\\#" ++ b ∧ b ≠ [] ∧ ∀ c ∈ b, IsBlank c) := by
  unfold sUnknown
  by_cases h2 : s.take 2 = ascii "\\#"
  · rw [if_neg (by simpa using h2)]
    obtain ⟨t, rfl⟩ : ∃ t, s = ascii "\\#" ++ t := ⟨s.drop 2, by rw [← h2, List.take_append_drop]⟩
    have hdrop : (ascii "\\#" ++ t).drop 2 = t := List.drop_left' (by decide)
    have hQ : (∃ b, ascii "\\#" ++ t = ascii "\\#" ++ b ∧ b ≠ [] ∧ ∀ c ∈ b, IsBlank c) ↔ t ≠ [] ∧ ∀ c ∈ t, IsBlank c := by
      constructor
      · rintro ⟨b, e, h⟩; rw [List.append_cancel_left e]; exact h
      · intro h; exact ⟨t, rfl, h⟩
    simp only [hdrop]
    split
    · rename_i hsp
      have hne : t ≠ [] := by rintro rfl; simp at hsp
      by_cases hb : t.dropWhile isSpace = []
      · rw [hb]
        have : scanfU 16 [] = .eof := rfl
        simp only [List.takeWhile_nil, List.all_nil, if_true, this]
        exact .ub (hQ.mpr ⟨hne, (allBlank_iff t).mpr hb⟩)
      · have no : ¬ ∃ b, ascii "\\#" ++ t = ascii "\\#" ++ b ∧ b ≠ [] ∧ ∀ c ∈ b, IsBlank c := fun h => hb ((allBlank_iff t).mp (hQ.mp h).2)
        split
        · have hd : (t.dropWhile isSpace).dropWhile isSpace ≠ [] := by
            intro h
            obtain ⟨b, e1, e2, e3⟩ := (dropSpace_iff t _).mp rfl
            have := (allBlank_iff _).mpr h
            cases hc : t.dropWhile isSpace with
            | nil => exact hb hc
            | cons c r => rw [hc] at this e3; exact e3 c rfl (this c (by simp))
          cases hsc : scanfU 16 (t.dropWhile isSpace) with
          | eof =>
            unfold scanfU at hsc
            rw [if_neg hd] at hsc
            split at hsc <;> cases hsc
          | «nomatch» => exact .ok no
          | val n =>
            simp only
            obtain ⟨r, hr⟩ := sGeneric_safe ((t.dropWhile isSpace).drop ((t.dropWhile isSpace).takeWhile fun c => !isSpace c).length) u 0
            rw [hr, ok_bind]
            split <;> exact .ok no
        · exact .ok no
    · rename_i hsp
      refine .ok (fun h => ?_)
      obtain ⟨hne, hall⟩ := hQ.mp h
      cases t with
      | nil => exact hne rfl
      | cons c t => exact hsp (by simpa using (isSpace_iff c).mpr (hall c (by simp)))
  · rw [if_pos h2]
    refine .ok ?_
    rintro ⟨b, rfl, -⟩
    exact h2 (List.take_left' (by decide))

/-- How the whole ends, from how the fields end. -/
theorem rdata_fate {o : Outcome FRes} {P : Prop} (h : Fate o P) : ((o >>= fun r => match r with | .go _ u => ok (Res.success, u) | .bad e u' => ok (e, u'.take 0)) >>=
    fun r => if r.1 = .success then ok r.2 else err r.1) = ub ↔ P := by
  rcases h with ⟨h, hp⟩ | ⟨⟨r, h⟩, hp⟩
  · rw [h, ub_bind, ub_bind]; exact ⟨fun _ => hp, fun _ => rfl⟩
  · rw [h, ok_bind]
    refine ⟨fun h => ?_, fun h => absurd h hp⟩
    cases r <;> simp only [ok_bind] at h <;> split at h <;> cases h

theorem fields_fate {ts : List Rdf} {s u : List UInt8} (h0 : 0 ∉ s) : Fate (sFields ts (some s) u) (UpTo FieldUndefined ts s) := by
  have h1 := fields_upTo (Q := fun o => o = ub) (P := FieldUndefined) (by simp) (fun t s u h hs h0 => (field_fate h hs h0 u).iff) ts s u (some s) h0 (at_some.mpr rfl)
  have h2 := fields_upTo (Q := fun o => (∀ r, o ≠ ok r) ∧ o ≠ ub) (P := fun _ _ => False) (by simp)
    (fun t s u h hs h0 => ⟨fun ⟨h1, h2⟩ => by
      rcases field_fate (t := t) h hs h0 u with ⟨h, _⟩ | ⟨⟨r, h⟩, _⟩
      · exact h2 h
      · exact h1 r h, False.elim⟩) ts s u (some s) h0 (at_some.mpr rfl)
  have h3 : ∀ {ts s}, ¬ UpTo (fun _ _ => False) ts s := by
    intro ts s h
    induction h with
    | here _ _ _ h => exact h
    | later _ _ _ _ _ ih => exact ih
  by_cases hu : sFields ts (some s) u = ub
  · exact .inl ⟨hu, h1.mp hu⟩
  · refine .inr ⟨?_, fun h => hu (h1.mpr h)⟩
    by_contra hno
    exact h3 (h2.mp ⟨fun r hr => hno ⟨r, hr⟩, hu⟩)

/-- **C69, exactly.** The texts whose reading is not defined, for every type and class: a field of the type is reached that is a name ending in a backslash that
escapes nothing, base64 with a `{`, hexadecimal digits followed by two or more characters of white space, a salt with such a gap, or an `ech` parameter with a `{` (`FieldUndefined`); or, for
a type without a known layout, the marker `\#` is followed by nothing but white space. -/
theorem C69_undefined_exactly (s : List UInt8) (ty cls : Nat) (h0 : 0 ∉ s) : strToRdata s ty cls = ub ↔ TextUndefined ty cls s := by
  unfold strToRdata strToRdataUbuf TextUndefined
  cases hd : recordDescr ty with
  | none =>
    refine (rdata_fate (unknown_fate s [])).trans ?_
    simp
  | some d =>
    simp only
    cases ha : d.applies cls with
    | false =>
      simp only [Bool.false_eq_true, if_false, ok_bind, if_true]
      simp [ha]
    | true =>
      rw [if_pos rfl]
      refine (rdata_fate (fields_fate (u := []) h0)).trans ?_
      simp [ha]

/-- **C69.** Reading never runs for ever and never fails an assertion. -/
theorem C69_ends (s : List UInt8) (ty cls : Nat) (h0 : 0 ∉ s) : strToRdata s ty cls ≠ hang ∧ strToRdata s ty cls ≠ abort := by
  have fin : ∀ {o : Outcome FRes} {P : Prop}, Fate o P → ∀ x, ((o >>= fun r => match r with | .go _ u => ok (Res.success, u) | .bad e u' => ok (e, u'.take 0)) >>=
      fun r => if r.1 = .success then ok r.2 else err r.1) = x → x ≠ hang ∧ x ≠ abort := by
    intro o P h x e
    rcases h with ⟨h, hp⟩ | ⟨⟨r, h⟩, hp⟩
    · rw [h, ub_bind, ub_bind] at e; subst e; simp
    · rw [h, ok_bind] at e
      cases r <;> simp only [ok_bind] at e <;> split at e <;> subst e <;> simp
  unfold strToRdata strToRdataUbuf
  cases hd : recordDescr ty with
  | none => exact fin (unknown_fate s []) _ rfl
  | some d =>
    simp only
    cases ha : d.applies cls with
    | false => simp
    | true => rw [if_pos rfl]; exact fin (fields_fate (u := []) h0) _ rfl

/-- **C101, for texts.** A text is rejected with `wdns_res_name_overflow` exactly if everything in front of a name is right and this name is too long. -/
theorem C101_text_overflow (s : List UInt8) (ty cls : Nat) (h0 : 0 ∉ s) : strToRdata s ty cls = err .nameOverflow ↔ TextTooLong ty cls s := by
  have fin : ∀ {o : Outcome FRes}, (∀ e, o ≠ err e) → (((o >>= fun r => match r with | .go _ u => ok (Res.success, u) | .bad e u' => ok (e, u'.take 0)) >>=
      fun r => if r.1 = .success then ok r.2 else err r.1) = err .nameOverflow ↔ ∃ u', o = ok (.bad .nameOverflow u')) := by
    intro o ho
    cases o with
    | ok r =>
      cases r with
      | go p u => simp
      | bad e u =>
        simp only [ok_bind, ok.injEq, FRes.bad.injEq]
        by_cases he : e = .success
        · subst he; simp
        · simp [he]
    | err e => exact absurd rfl (ho e)
    | ub => simp
    | hang => simp
    | abort => simp
  have noErr : ∀ {o : Outcome FRes} {P : Prop}, Fate o P → ∀ e, o ≠ err e := by
    rintro o P (⟨h, _⟩ | ⟨⟨r, h⟩, _⟩) e <;> rw [h] <;> simp
  unfold strToRdata strToRdataUbuf TextTooLong
  cases hd : recordDescr ty with
  | none =>
    refine (fin (noErr (unknown_fate s []))).trans ⟨?_, by simp⟩
    rintro ⟨u', h⟩
    have := (sUnknown_fin s []).bads _ _ h
    simp at this
  | some d =>
    simp only
    cases ha : d.applies cls with
    | false => simp [ha]
    | true =>
      rw [if_pos rfl]
      refine (fin (noErr (fields_fate (u := []) h0))).trans ?_
      rw [fields_upTo (Q := fun o => ∃ u', o = ok (.bad .nameOverflow u')) (P := FieldTooLong) (by simp) (fun t s u h hs h0 => field_tooLong h hs h0 u) d.types s [] (some s) h0 (at_some.mpr rfl)]
      simp [ha]

/-- **C101, for texts.** Every other text that is neither read nor undefined is rejected with `wdns_res_parse_error`, except for OPT, for which `wdns_res_failure` is
returned (`C101_failure`). -/
theorem C101_text_parse (s : List UInt8) (ty cls : Nat) (h0 : 0 ∉ s) (hty : ty ≠ 41) :
    strToRdata s ty cls = err .parseError ↔ (∀ r, strToRdata s ty cls ≠ ok r) ∧ ¬ TextUndefined ty cls s ∧ ¬ TextTooLong ty cls s := by
  rw [← C69_undefined_exactly s ty cls h0, ← C101_text_overflow s ty cls h0]
  obtain ⟨h1, h2⟩ := C69_ends s ty cls h0
  constructor
  · intro h; rw [h]; simp
  · rintro ⟨h3, h4, h5⟩
    cases h : strToRdata s ty cls with
    | ok r => exact absurd h (h3 r)
    | ub => exact absurd h h4
    | hang => exact absurd h h1
    | abort => exact absurd h h2
    | err e =>
      have he := C101_rdata_text s ty cls e h
      cases hd : recordDescr ty with
      | none => rw [hd] at he; simp only at he; rw [he]
      | some d =>
        rw [hd] at he
        obtain ⟨_, f, hf, hm⟩ := he
        have hf : e = .parseError ∨ e = .nameOverflow ∨ e = .failure := by
          cases f <;> simp [fieldTextCodes, nameTextCodes] at hm <;> first | (rcases hm with h | h <;> simp [h]; done) | simp [hm]
        rcases hf with rfl | rfl | rfl
        · rfl
        · exact absurd h h5
        · exact absurd ((C101_failure s ty cls).1 h) hty

/-! Texts of each kind: an NS name ending in a backslash, an MX whose name is too long, the marker alone, and the texts behind them. -/

example : TextUndefined 2 1 (ascii "a\\") ∧ TextUndefined 60000 1 (ascii "\\#  ") ∧ TextUndefined 43 1 (ascii "1 2 3 0a  ") ∧ TextUndefined 64 1 (ascii "1 . ech=\"\\123\"") :=
  ⟨(C69_undefined_exactly _ _ _ (by decide)).mp (by decide +kernel), (C69_undefined_exactly _ _ _ (by decide)).mp (by decide +kernel),
    (C69_undefined_exactly _ _ _ (by decide)).mp (by decide +kernel), (C69_undefined_exactly _ _ _ (by decide)).mp (by decide +kernel)⟩
example : TextTooLong 15 1 (ascii "10 " ++ List.replicate 254 97) ∧ strToRdata (ascii "x " ++ List.replicate 254 97) 15 1 = err .parseError :=
  ⟨(C101_text_overflow _ _ _ (by decide)).mp (by decide +kernel), by decide +kernel⟩
example : ¬ TextUndefined 43 1 (ascii "1 2 3 0a ") ∧ ¬ TextTooLong 43 1 (ascii "1 2 3 0a ") :=
  ((C101_text_parse _ _ _ (by decide) (by decide)).mp (by decide +kernel : strToRdata (ascii "1 2 3 0a ") 43 1 = err .parseError)).2

end Wdns
