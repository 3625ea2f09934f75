import Verif.Spec.ScanFaults
import Verif.Lemmas.ScanGrammar
import Verif.Lemmas.ScanSafe
import Verif.Props.NameFaults
import Verif.Props.Codes

/-!
# When the reading of a text is not defined, and when a name is too long: fields
-/

namespace Wdns
open Outcome Spec

theorem scanfHex2_eof (s : List UInt8) : scanfHex2 s = .eof ↔ ∀ c ∈ s, IsBlank c := by
  rw [allBlank_iff]
  unfold scanfHex2
  cases s.dropWhile isSpace with
  | nil => simp
  | cons c cs =>
    simp only [reduceCtorEq, iff_false]
    split
    · split <;> simp
    · split
      · simp
      · split <;> simp

/-- The outcome is a result, or undefined exactly if `P`. -/
def Fate {α : Type} (o : Outcome α) (P : Prop) : Prop := (o = ub ∧ P) ∨ ((∃ r, o = ok r) ∧ ¬ P)

theorem Fate.ok {α : Type} {r : α} {P : Prop} (h : ¬ P) : Fate (ok r) P := .inr ⟨⟨r, rfl⟩, h⟩
theorem Fate.ub {α : Type} {P : Prop} (h : P) : Fate (ub : Outcome α) P := .inl ⟨rfl, h⟩
theorem Fate.congr {α : Type} {o : Outcome α} {P Q : Prop} (h : Fate o P) (e : P ↔ Q) : Fate o Q := by rwa [← propext e]
theorem Fate.iff {α : Type} {o : Outcome α} {P : Prop} (h : Fate o P) : o = Outcome.ub ↔ P := by
  rcases h with ⟨h, hp⟩ | ⟨⟨r, h⟩, hp⟩
  · exact ⟨fun _ => hp, fun _ => h⟩
  · rw [h]; exact ⟨by simp, fun h => absurd h hp⟩
theorem Fate.bind {α β : Type} {o : Outcome α} {f : α → Outcome β} {P : Prop} {Q : α → Prop} (h : Fate o P) (hf : ∀ a, o = Outcome.ok a → Fate (f a) (Q a)) :
    Fate (o >>= f) (P ∨ ∃ a, o = Outcome.ok a ∧ Q a) := by
  rcases h with ⟨h, hp⟩ | ⟨⟨r, h⟩, hp⟩
  · rw [h, ub_bind]; exact .ub (.inl hp)
  · rw [h, ok_bind]
    refine (hf r h).congr ⟨fun hq => .inr ⟨r, rfl, hq⟩, ?_⟩
    rintro (h' | ⟨a, e, hq⟩)
    · exact absurd h' hp
    · cases e; exact hq

theorem hexPairs_iff {s w rest : List UInt8} : HexPairs s w rest ↔ (w = [] ∧ s = rest) ∨
    ∃ c d s' b w', s = c :: d :: s' ∧ w = b :: w' ∧ HexAt (c :: d :: s') b ∧ HexPairs s' w' rest := by
  constructor
  · intro h
    cases h with
    | nil => exact .inl ⟨rfl, rfl⟩
    | cons h1 h2 => exact .inr ⟨_, _, _, _, _, rfl, rfl, h1, h2⟩
  · rintro (⟨rfl, rfl⟩ | ⟨c, d, s', b, w', rfl, rfl, h1, h2⟩)
    · exact .nil
    · exact .cons h1 h2

theorem sBytes_fate (s u : List UInt8) : Fate (sBytes s u) (∃ w rest, HexPairs s w rest ∧ 2 ≤ rest.length ∧ ∀ c ∈ rest, IsBlank c) := by
  fun_induction sBytes s u with
  | case1 =>
    refine .ok ?_
    rintro ⟨w, rest, h, h2, -⟩
    cases h; simp at h2
  | case2 =>
    refine .ok ?_
    rintro ⟨w, rest, h, h2, -⟩
    cases h; simp at h2
  | case3 u c d s h => exact .ub ⟨[], _, .nil, by simp, (scanfHex2_eof _).mp h⟩
  | case4 u c d s h =>
    refine .ok ?_
    rintro ⟨w, rest, h1, h2, h3⟩
    cases h1 with
    | nil => rw [(scanfHex2_eof _).mpr h3] at h; cases h
    | cons h1 _ => rw [(scanfHex2_iff _ _).mpr h1] at h; cases h
  | case5 u c d s b h ih =>
    refine ih.congr ⟨?_, ?_⟩
    · rintro ⟨w, rest, h1, h2, h3⟩
      exact ⟨b :: w, rest, .cons ((scanfHex2_iff _ _).mp h) h1, h2, h3⟩
    · rintro ⟨w, rest, h1, h2, h3⟩
      cases h1 with
      | nil => rw [(scanfHex2_eof _).mpr h3] at h; cases h
      | cons _ h1 => exact ⟨_, rest, h1, h2, h3⟩

theorem sSalt_fate : ∀ (n : Nat) (s u : List UInt8), 2 * n ≤ s.length →
    Fate (sSalt n s u) (∃ w rest, HexPairs s w rest ∧ w.length < n ∧ ∀ c ∈ rest, IsBlank c)
  | 0, s, u, _ => by
    rw [sSalt]
    exact .ok (by rintro ⟨w, rest, -, h, -⟩; omega)
  | n + 1, c :: d :: s, u, hl => by
    rw [sSalt]
    cases h : scanfHex2 (c :: d :: s) with
    | eof => exact .ub ⟨[], _, .nil, by simp, (scanfHex2_eof _).mp h⟩
    | «nomatch» =>
      refine .ok ?_
      rintro ⟨w, rest, h1, h2, h3⟩
      cases h1 with
      | nil => rw [(scanfHex2_eof _).mpr h3] at h; cases h
      | cons h1 _ => rw [(scanfHex2_iff _ _).mpr h1] at h; cases h
    | val b =>
      refine (sSalt_fate n s _ (by simp at hl; omega)).congr ⟨?_, ?_⟩
      · rintro ⟨w, rest, h1, h2, h3⟩
        exact ⟨b :: w, rest, .cons ((scanfHex2_iff _ _).mp h) h1, by simp; omega, h3⟩
      · rintro ⟨w, rest, h1, h2, h3⟩
        cases h1 with
        | nil => rw [(scanfHex2_eof _).mpr h3] at h; cases h
        | cons _ h1 => exact ⟨_, rest, h1, by simp at h2; omega, h3⟩
  | n + 1, [], u, hl => by simp at hl
  | n + 1, [c], u, hl => by simp at hl; omega

theorem b64_ends : ∀ (size : Nat) (s : List UInt8) (st : _) (cur : _) (out : List UInt8),
    (∃ r, b64DecodeLoop size st cur s out = ok r) ∨ b64DecodeLoop size st cur s out = ub := by
  intro size s
  induction s with
  | nil => intro st cur out; unfold b64DecodeLoop; split; exact .inl ⟨_, rfl⟩; exact .inr rfl
  | cons c s ih =>
    intro st cur out
    by_cases hc : c = 123
    · subst hc
      unfold b64DecodeLoop
      have : b64DecodeValue 123 = ub := by decide
      rw [this, ub_bind]; exact .inr rfl
    · unfold b64DecodeLoop
      rw [b64DecodeValue_eq c hc, ok_bind]
      cases b64Val c with
      | none => exact ih _ _ _
      | some v => cases st <;> simp only <;> first | exact ih _ _ _ | (split <;> first | exact ih _ _ _ | exact .inr rfl)

theorem base64_fate (s : List UInt8) : Fate (base64StrToBytes s) (123 ∈ s) := by
  by_cases h : 123 ∈ s
  · rcases b64_ends (s.length + 1) s .a 0 [] with ⟨r, hr⟩ | hr
    · exact absurd h ((base64StrToBytes_iff s r).mp hr).1
    · exact .inl ⟨hr, h⟩
  · exact .inr ⟨⟨_, (base64StrToBytes_iff s _).mpr ⟨h, rfl⟩⟩, h⟩

theorem svcEchTok_fate (cv u : List UInt8) : Fate (svcEchTok cv u) (∃ tok, (pieces 32 cv).head? = some tok ∧ tok.length ≤ 255 ∧ 123 ∈ tok) := by
  unfold svcEchTok
  rw [strtok_eq_pieces]
  cases hp : (pieces 32 cv).head? with
  | none => exact .ok (by simp)
  | some tok =>
    simp only
    by_cases hl : tok.length > 255
    · rw [if_pos hl]
      exact .ok (by rintro ⟨t, e, h, -⟩; cases e; omega)
    · rw [if_neg hl]
      refine ((base64_fate tok).bind (Q := fun _ => False) (fun a _ => .ok id)).congr ⟨?_, ?_⟩
      · rintro (h | ⟨_, _, h⟩)
        · exact ⟨tok, rfl, by omega, h⟩
        · exact h.elim
      · rintro ⟨t, e, -, h⟩; cases e; exact .inl h

theorem svcValue_fate (k : Nat) (x u : List UInt8) :
    Fate (svcValue k x u) (k = 5 ∧ ∃ tok, (pieces 32 (cText x)).head? = some tok ∧ tok.length ≤ 255 ∧ 123 ∈ tok) := by
  unfold svcValue
  have hc : cstrOf x = cText x := rfl
  simp only [hc]
  by_cases h5 : k = 5
  · subst h5
    rw [if_neg (by decide), if_neg (by decide), if_pos rfl]
    exact (svcEchTok_fate _ _).congr ⟨fun h => ⟨rfl, h⟩, fun h => h.2⟩
  · by_cases h0 : k = 0
    · rw [if_pos h0]; exact .ok (fun h => h5 h.1)
    · rw [if_neg h0]
      by_cases h3 : k = 3
      · rw [if_pos h3]; exact .ok (fun h => h5 h.1)
      · rw [if_neg h3, if_neg h5]
        by_cases h4 : k = 4
        · rw [if_pos h4]; exact .ok (fun h => h5 h.1)
        · rw [if_neg h4]
          by_cases h6 : k = 6
          · rw [if_pos h6]; exact .ok (fun h => h5 h.1)
          · rw [if_neg h6]
            by_cases h1 : k = 1
            · rw [if_pos h1]; exact .ok (fun h => h5 h.1)
            · rw [if_neg h1]; exact .ok (fun h => h5 h.1)

theorem strToSvcparam_fate {k : Nat} (hk : k ≠ 65535) (x u : List UInt8) :
    Fate (strToSvcparam u k (some x)) (k = 5 ∧ ∃ tok, (pieces 32 (cText x)).head? = some tok ∧ tok.length ≤ 255 ∧ 123 ∈ tok) := by
  unfold strToSvcparam
  rw [if_neg hk]
  simp only
  by_cases h2 : k = 2
  · rw [if_pos h2]; exact .ok (by omega)
  · rw [if_neg h2]
    refine ((svcValue_fate k x _).bind (Q := fun _ => False) (fun a _ => ?_)).congr ⟨?_, .inl⟩
    · obtain ⟨r, n, u2⟩ := a
      simp only
      split <;> exact .ok id
    · rintro (h | ⟨_, _, h⟩)
      · exact h
      · exact h.elim

theorem sSvcparams_fate : ∀ (fuel : Nat) (s u : List UInt8), s.length < fuel → Fate (sSvcparams fuel s u) (SvcBrace s)
  | 0, s, u, h => by omega
  | fuel + 1, [], u, h => by
    rw [sSvcparams]
    refine .ok ?_
    generalize hs : ([] : List UInt8) = s
    intro h
    cases h with
    | space => cases hs
    | @flag key s h1 h2 h3 _ _ =>
      have := List.append_eq_nil_iff.mp hs.symm
      rw [this.1] at h3; exact keyReads_nil _ h3
    | param => simp at hs
    | ech => simp at hs
  | fuel + 1, c :: cs, u, hf => by
    rw [sSvcparams_cons]
    by_cases hc : c = 32
    · subst hc
      rw [if_pos rfl]
      refine (sSvcparams_fate fuel cs u (by simp at hf; omega)).congr ⟨.space, fun h => ?_⟩
      have nokey : ∀ {key t : List UInt8} {k : Nat}, (32 : UInt8) :: cs = key ++ t → 32 ∉ key → KeyReads key k → False := by
        intro key t k e h32 hk
        cases key with
        | nil => exact keyReads_nil _ hk
        | cons a l => simp only [List.cons_append, List.cons.injEq] at e; exact h32 (by rw [e.1]; simp)
      generalize hs : (32 : UInt8) :: cs = s at h
      cases h with
      | space h => simp only [List.cons.injEq, true_and] at hs; rw [hs]; exact h
      | flag h1 h2 h3 => exact (nokey hs h2 h3).elim
      | param h1 h2 h3 => exact (nokey hs h2 h3).elim
      | ech h1 h2 h3 => exact (nokey hs h2 h3).elim
    · rw [if_neg hc]
      obtain ⟨key, val, e, hkey, h61, h32, hval⟩ := takeWhile_key (c :: cs)
      simp only [hkey]
      rw [e, List.drop_left]
      -- the key is the same in every reading
      have same : ∀ {key' val' : List UInt8}, key ++ val = key' ++ val' → 61 ∉ key' → 32 ∉ key' → (∀ c, val'.head? = some c → c = 61 ∨ c = 32) → key = key' ∧ val = val' := by
        intro key' val' e' h61' h32' hv'
        have hk' : (key' ++ val').takeWhile (fun c => decide (c ≠ 61 ∧ c ≠ 32)) = key' := by
          refine takeWhile_app (fun d hd => ?_) fun d hd => by rcases hv' d hd with rfl | rfl <;> rfl
          simp only [ne_eq, decide_eq_true_eq]
          exact ⟨fun h => h61' (h ▸ hd), fun h => h32' (h ▸ hd)⟩
        rw [← e', ← e, hkey] at hk'
        subst hk'
        exact ⟨rfl, List.append_cancel_left e'⟩
      have hlen : key.length + val.length < fuel + 1 := by rw [e, List.length_append] at hf; exact hf
      have hkne : ∀ {k}, KeyReads key k → key ≠ [] := fun h h' => keyReads_nil _ (h' ▸ h)
      -- what a reading of the whole is
      have inv : SvcBrace (key ++ val) → (∃ (_ : KeyReads key 2) (_ : ∀ c, val.head? = some c → c = 32), SvcBrace val) ∨
          (∃ x k y rest v n, val = 61 :: x ∧ KeyReads key k ∧ k ≠ 2 ∧ StringReads x y rest ∧ ValueReads k y v n ∧ SvcBrace rest) ∨
          (∃ x y rest tok, val = 61 :: x ∧ KeyReads key 5 ∧ StringReads x y rest ∧ (pieces 32 (cText y)).head? = some tok ∧ tok.length ≤ 255 ∧ 123 ∈ tok) := by
        intro h
        generalize hs : key ++ val = s at h
        cases h with
        | space h => rw [← e] at hs; simp only [List.cons.injEq] at hs; exact absurd hs.1 hc
        | flag h1 h2 h3 h4 h5 =>
          obtain ⟨rfl, rfl⟩ := same hs h1 h2 (fun c hc => .inr (h4 c hc))
          exact .inl ⟨h3, h4, h5⟩
        | param h1 h2 h3 h4 h5 h6 h7 =>
          obtain ⟨rfl, rfl⟩ := same hs h1 h2 (fun c hc => .inl (by cases hc; rfl))
          exact .inr (.inl ⟨_, _, _, _, _, _, rfl, h3, h4, h5, h6, h7⟩)
        | ech h1 h2 h3 h4 h5 h6 h7 =>
          obtain ⟨rfl, rfl⟩ := same hs h1 h2 (fun c hc => .inl (by cases hc; rfl))
          exact .inr (.inr ⟨_, _, _, _, rfl, h3, h4, h5, h6, h7⟩)
      split
      · rename_i hk
        refine .ok (fun h => ?_)
        have no : ∀ {k}, ¬ KeyReads key k := fun h => keyReads_ne h (by rw [← (strToSvcparamkey_iff key _ (keyReads_ne h)).mpr h]; exact hk)
        rcases inv h with ⟨h, _⟩ | ⟨_, _, _, _, _, _, _, h, _⟩ | ⟨_, _, _, _, _, h, _⟩ <;> exact no h
      rename_i hk
      have hkr := (strToSvcparamkey_iff key _ hk).mp rfl
      have uniq : ∀ {k}, KeyReads key k → strToSvcparamkey key = k := fun h => (strToSvcparamkey_iff key _ (keyReads_ne h)).mpr h
      split
      · rename_i hv
        have nov : ∀ x, val ≠ 61 :: x := by rintro x rfl; simp at hv
        split
        · rename_i hk2
          refine .ok (fun h => ?_)
          rcases inv h with ⟨h, _⟩ | ⟨x, _, _, _, _, _, h, _⟩ | ⟨x, _, _, _, h, _⟩
          · exact hk2 (uniq h)
          · exact nov _ h
          · exact nov _ h
        · rename_i hk2
          have hk2' : strToSvcparamkey key = 2 := by omega
          rw [hk2'] at hkr ⊢
          have : strToSvcparam u 2 none = ok (.success, u ++ htons 2 ++ [0, 0]) := rfl
          rw [this, ok_bind]
          simp only
          rw [if_neg (by simp)]
          have hkl : 0 < key.length := List.length_pos_iff.mpr (hkne hkr)
          refine (sSvcparams_fate fuel val _ (by omega)).congr ⟨fun h => ?_, fun h => ?_⟩
          · refine .flag h61 h32 hkr ?_ h
            intro d hd
            rcases hv with rfl | hv
            · cases hd
            · rw [hd] at hv; cases hv; rfl
          · rcases inv h with ⟨_, _, h⟩ | ⟨x, _, _, _, _, _, h, _⟩ | ⟨x, _, _, _, h, _⟩
            · exact h
            · exact absurd h (nov _)
            · exact absurd h (nov _)
      · rename_i hv
        obtain ⟨x, rfl⟩ : ∃ x, val = 61 :: x := by
          cases val with
          | nil => exact absurd (Or.inl rfl) hv
          | cons d x =>
            rcases hval d rfl with rfl | rfl
            · exact ⟨x, rfl⟩
            · exact absurd (Or.inr rfl) hv
        simp only [List.drop_succ_cons, List.drop_zero]
        have inv : SvcBrace (key ++ 61 :: x) →
          (∃ k y rest v n, KeyReads key k ∧ k ≠ 2 ∧ StringReads x y rest ∧ ValueReads k y v n ∧ SvcBrace rest) ∨
          (∃ y rest tok, KeyReads key 5 ∧ StringReads x y rest ∧ (pieces 32 (cText y)).head? = some tok ∧ tok.length ≤ 255 ∧ 123 ∈ tok) := by
          intro h
          rcases inv h with ⟨_, h, _⟩ | ⟨x', k, y, rest, v, n, e, h⟩ | ⟨x', y, rest, tok, e, h⟩
          · exact absurd (h 61 rfl) (by decide)
          · cases e; exact .inl ⟨k, y, rest, v, n, h⟩
          · cases e; exact .inr ⟨y, rest, tok, h⟩
        split
        · rename_i hr
          refine .ok (fun h => ?_)
          have no : ∀ {y rest}, ¬ StringReads x y rest := by
            intro y rest h
            obtain ⟨j, hj0, hj, -⟩ := fromStr_complete h u
            rw [hj] at hr; exact hj0 hr
          rcases inv h with ⟨_, _, _, _, _, _, _, h, _⟩ | ⟨_, _, _, _, h, _⟩ <;> exact no h
        · rename_i hr
          obtain ⟨y, hy, hyu⟩ := fromStr_sound (s := x) (u := u) (k := (rdataFromStrString x u).1) (u' := (rdataFromStrString x u).2) rfl hr
          rw [hyu, List.take_left, List.drop_left]
          have ysame : ∀ {y' rest'}, StringReads x y' rest' → y' = y ∧ rest' = x.drop (rdataFromStrString x u).1 := by
            intro y' rest' h
            obtain ⟨j, hj0, hj, hjr, -⟩ := fromStr_complete h u
            rw [hj] at hyu ⊢
            simp only at hyu
            exact ⟨List.append_cancel_left hyu, hjr.symm⟩
          have hfuel : (x.drop (rdataFromStrString x u).1).length < fuel := by rw [List.length_drop]; simp at hlen; omega
          refine ((strToSvcparam_fate hk y u).bind (Q := fun a => a.1 = .success ∧ SvcBrace (x.drop (rdataFromStrString x u).1)) (fun a _ => ?_)).congr ⟨?_, ?_⟩
          · split
            · rename_i hs; exact .ok (fun h => hs h.1)
            · rename_i hs
              exact (sSvcparams_fate fuel _ _ hfuel).congr ⟨fun h => ⟨by by_contra hc; exact hs hc, h⟩, fun h => h.2⟩
          · rintro (⟨h5, tok, h1, h2, h3⟩ | ⟨⟨r, u2⟩, h1, h2, h3⟩)
            · rw [h5] at hkr
              exact .ech h61 h32 hkr hy h1 h2 h3
            · simp only at h2; subst h2
              have hk2 : strToSvcparamkey key ≠ 2 := by
                intro hk2
                rw [hk2] at h1
                simp [strToSvcparam] at h1
              obtain ⟨v, n, hv, -⟩ := (strToSvcparam_iff hk hk2 _ _ _).mp h1
              exact .param h61 h32 hkr hk2 hy hv h3
          · intro h
            rcases inv h with ⟨k, y', rest, v, n, h1, h2, h3, h4, h5⟩ | ⟨y', rest, tok, h1, h2, h3, h4, h5⟩
            · obtain ⟨rfl, rfl⟩ := ysame h3
              have hk' := uniq h1
              refine .inr ⟨_, (strToSvcparam_iff hk (by rw [hk']; exact h2) _ _ _).mpr ⟨v, n, by rw [hk']; exact h4, rfl⟩, rfl, h5⟩
            · obtain ⟨rfl, rfl⟩ := ysame h2
              exact .inl ⟨uniq h1, tok, h3, h4, h5⟩

end Wdns
