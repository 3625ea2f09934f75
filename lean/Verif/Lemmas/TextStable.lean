import Verif.Spec.TextStable
import Verif.Lemmas.ScanGrammar
import Verif.Lemmas.RoundTrip
import Verif.Lemmas.ToTextFields

/-! Lemmas for C77: what an accepted text denotes conforms to the layout and reads back, unless the text is irregular. -/

namespace Wdns
open Outcome Spec

theorem labelsRead_ne {f s n} (h : LabelsRead f s n) : ∀ l ∈ n, l ≠ [] := by
  induction h with
  | one h1 h2 => simpa using h2
  | oneDot h1 h2 => simpa using h2
  | cons h1 h2 _ ih => intro l hl; rcases List.mem_cons.mp hl with rfl | hl; exacts [h2, ih _ hl]

theorem nameReads_wf {f s n} (h : NameReads f s n) (hl : (wire n).length ≤ 255) (hs : ∀ l ∈ n, l.length ≤ 63) : WF n := by
  refine ⟨?_, hl⟩
  intro l hm
  have : l ≠ [] := by
    rcases h with ⟨-, rfl⟩ | h
    · simp at hm
    · exact labelsRead_ne h l hm
  have h1 := List.length_pos_iff.mpr this
  exact ⟨h1, hs l hm⟩

theorem strings_flatMap {ws : List (List UInt8)} (h : ∀ w ∈ ws, w.length ≤ 255) : Strings (ws.flatMap encString) := by
  induction ws with
  | nil => exact .nil
  | cons w ws ih =>
    have hw := h w (by simp)
    show Strings ((UInt8.ofNat w.length :: w) ++ ws.flatMap encString)
    exact .cons (by simp; omega) (ih fun w hw => h w (by simp [hw]))

theorem txtReads_le {s ws} (h : TxtReads s ws) : ∀ w ∈ ws, w.length ≤ 255 := by
  induction h with
  | nil => simp
  | blank _ _ ih => exact ih
  | cons _ _ h3 _ ih => intro w hw; rcases List.mem_cons.mp hw with rfl | hw; exacts [h3, ih _ hw]

theorem windows_flatMap {ws : List (UInt8 × List UInt8)} (h : ∀ w ∈ ws, 1 ≤ w.2.length ∧ w.2.length ≤ 32) :
    Windows (ws.flatMap encWindow) := by
  induction ws with
  | nil => exact .nil
  | cons w ws ih =>
    have hw := h w (by simp)
    show Windows ((w.1 :: UInt8.ofNat w.2.length :: w.2) ++ ws.flatMap encWindow)
    have he : (UInt8.ofNat w.2.length).toNat = w.2.length := by simp; omega
    exact .cons (by rw [he]; exact hw.1) (by rw [he]; exact hw.2) he.symm (ih fun w hw => h w (by simp [hw]))

theorem bigEndian_length (k v : Nat) : (bigEndian k v).length = k := by simp [bigEndian]

theorem encString_ok {w : List UInt8} (h : w.length ≤ 255) : ∃ l s, encString w = l :: s ∧ s.length = l.toNat :=
  ⟨_, _, rfl, by simp; omega⟩

theorem alpnReads_ne {x ids} (h : AlpnReads x ids) : ids ≠ [] := by cases h <;> simp

theorem alpnLength_le : ∀ ids : List (List UInt8), alpnLength ids ≤ (ids.flatMap encString).length
  | [] => by simp [alpnLength]
  | [i] => by
    simp only [alpnLength, List.flatMap_cons, List.flatMap_nil, encString, List.append_nil, List.length_cons]
    have := Nat.mod_le i.length 256
    split <;> omega
  | i :: j :: is => by
    have := alpnLength_le (j :: is)
    have := Nat.mod_le i.length 256
    rw [alpnLength, List.flatMap_cons, List.length_append]
    simp only [encString, List.length_cons]
    omega
    simp

theorem alpnLength_eq : ∀ ids : List (List UInt8), ids ≠ [] → (∀ i ∈ ids, i.length ≤ 255) → ids.getLast? ≠ some [] →
    alpnLength ids = (ids.flatMap encString).length
  | [], h, _, _ => by simp at h
  | [i], _, h, hl => by
    have h1 := h i (by simp)
    have h2 : i ≠ [] := by simpa using hl
    have h3 := List.length_pos_iff.mpr h2
    rw [alpnLength, Nat.mod_eq_of_lt (by omega), if_neg (by omega)]
    simp [encString]
  | i :: j :: is, _, h, hl => by
    have ih := alpnLength_eq (j :: is) (by simp) (fun i hi => h i (by simp [List.mem_cons] at hi ⊢; right; exact hi))
      (by simpa [List.getLast?_cons_cons] using hl)
    have h1 := h i (by simp)
    rw [alpnLength, List.flatMap_cons, List.length_append, ih, Nat.mod_eq_of_lt (by omega)]
    simp [encString]
    simp

theorem forall2_flatten_len {R : List UInt8 → List UInt8 → Prop} {k : Nat} (hR : ∀ t a, R t a → a.length = k) :
    ∀ {ts as}, List.Forall₂ R ts as → as.flatten.length % k = 0 ∧ (ts ≠ [] → 0 < k → as.flatten ≠ [])
  | [], _, h => by cases h; simp
  | t :: ts, _, h => by
    cases h with
    | cons h1 h2 =>
      rename_i a as
      obtain ⟨i1, -⟩ := forall2_flatten_len hR h2
      have := hR _ _ h1
      constructor
      · rw [List.flatten_cons, List.length_append, this, Nat.add_mod_left]; exact i1
      · intro _ hk hn
        have : (a ++ as.flatten).length = 0 := by rw [← List.flatten_cons, hn]; rfl
        rw [List.length_append] at this
        omega

theorem keyReads_lt {t k} (h : KeyReads t k) : k < 65535 := by
  rcases h with ⟨h, -⟩ | ⟨-, h, -⟩ <;> omega

theorem words16_net16 {ks : List Nat} : (∀ k ∈ ks, k < 65536) → words16 (ks.flatMap net16) = ks := by
  induction ks with
  | nil => intro _; rfl
  | cons k ks ih =>
    intro h
    have hk := h k (by simp)
    show be16 (UInt8.ofNat (k / 256)) (UInt8.ofNat (k % 256)) :: words16 (ks.flatMap net16) = _
    rw [ih fun k hk => h k (by simp [hk])]
    congr 1
    simp only [be16, UInt8.toNat_ofNat']
    omega

theorem net16_flat_len (ks : List Nat) : (ks.flatMap net16).length = 2 * ks.length := by
  induction ks with
  | nil => rfl
  | cons k ks ih => rw [List.flatMap_cons, List.length_append, ih]; simp [net16]; omega

/-- What a regular value is good for. -/
theorem valueReads_ok {k : Nat} {w v : List UInt8} {n : Nat} (h : ValueReads k w v n) (hk : k < 65535) (hk2 : k ≠ 2)
    (ha : k = 1 → ∀ ids, AlpnReads w ids → ids.getLast? ≠ some [] ∧ ∀ i ∈ ids, i.length ≤ 255) :
    n = v.length ∧ SvcValueOK k v ∧ ((k = 5 → v ≠ [] ∧ v.length ≤ 189) → ParamExact k v) := by
  unfold ValueReads at h
  split at h
  · rename_i h0
    subst h0
    obtain ⟨h1, h2, ks, h3, rfl⟩ := h
    generalize pieces 44 (cText w) = ps at h1 h3
    have hlt : ∀ k ∈ ks, k < 65535 := by
      intro k hk
      obtain ⟨t, ht⟩ : ∃ t, KeyReads t k := by
        clear h1 h2 ha
        induction h3 with
        | nil => simp at hk
        | cons h _ ih => rcases List.mem_cons.mp hk with rfl | hk; exacts [⟨_, h⟩, ih hk]
      exact keyReads_lt ht
    have hlen := net16_flat_len ks
    refine ⟨h2, by simp only [SvcValueOK]; omega, fun _ => ⟨?_, ?_, by simp, by simp⟩⟩
    · rintro ⟨hv, -⟩
      have : ks = [] := by
        have : (ks.flatMap net16).length = 0 := by rw [hv]; rfl
        exact List.length_eq_zero_iff.mp (by omega)
      subst this
      cases h3
      exact h1 rfl
    · intro _
      rw [words16_net16 (fun k hk => by have := hlt k hk; omega)]
      intro hm
      have := hlt _ hm
      omega
  split at h
  · rename_i h0
    subst h0
    obtain ⟨ids, h1, rfl, h3⟩ := h
    obtain ⟨h4, h5⟩ := ha rfl ids h1
    have hne := alpnReads_ne h1
    rw [alpnLength_eq ids hne h5 h4] at h3
    refine ⟨h3, ⟨?_, strings_flatMap h5⟩, fun _ => ⟨by simp [EmptyList], by simp, ?_, by simp⟩⟩
    · cases ids with
      | nil => simp at hne
      | cons i is => simp [encString]
    · intro _
      have hd := List.dropLast_append_getLast hne
      refine ⟨ids.dropLast, ids.getLast hne, ?_, ?_, by rw [hd]⟩
      · rw [hd]; intro s hs; have := h5 s hs; omega
      · intro he
        apply h4
        rw [List.getLast?_eq_some_getLast hne, he]
  split at h
  · rename_i h0
    subst h0
    obtain ⟨tok, p, _, _, _, rfl, rfl⟩ := h
    refine ⟨by simp [net16], by simp [SvcValueOK, net16], fun _ => ⟨by simp [EmptyList], by simp, by simp, by simp⟩⟩
  split at h
  · rename_i h0
    subst h0
    obtain ⟨h1, h2, as, h3, rfl⟩ := h
    obtain ⟨i1, i2⟩ := forall2_flatten_len (fun _ _ h => ip4Reads_length h) h3
    refine ⟨h2, by simpa only [SvcValueOK] using i1, fun _ => ⟨?_, by simp, by simp, by simp⟩⟩
    rintro ⟨hv, -⟩
    exact i2 h1 (by omega) hv
  split at h
  · rename_i h0
    subst h0
    obtain ⟨tok, _, _, _, _, h2⟩ := h
    exact ⟨h2, trivial, fun h5 => ⟨by simp [EmptyList], by simp, by simp, fun _ => h5 rfl⟩⟩
  split at h
  · rename_i h0
    subst h0
    obtain ⟨h1, h2, as, h3, rfl⟩ := h
    obtain ⟨i1, i2⟩ := forall2_flatten_len (fun _ _ h => ip6Reads_length h) h3
    refine ⟨h2, by simpa only [SvcValueOK] using i1, fun _ => ⟨?_, by simp, by simp, by simp⟩⟩
    rintro ⟨hv, -⟩
    exact i2 h1 (by omega) hv
  · rename_i n0 n1 n3 n4 n5 n6
    obtain ⟨rfl, rfl⟩ := h
    refine ⟨rfl, ?_, fun _ => ⟨?_, by omega, by omega, by omega⟩⟩
    · unfold SvcValueOK
      split <;> first | trivial | omega
    · rintro ⟨-, h | h | h⟩ <;> omega

theorem params_cons {k : Nat} {v w : List UInt8} (hk : k < 65536) (hv : v.length < 65536) (h1 : SvcValueOK k v) (h2 : Params w) :
    Params (net16 k ++ net16 (v.length % 65536) ++ v ++ w) := by
  have hb : ∀ n < 65536, be16 (UInt8.ofNat (n / 256)) (UInt8.ofNat (n % 256)) = n := by
    intro n hn
    simp only [be16, UInt8.toNat_ofNat']
    omega
  rw [Nat.mod_eq_of_lt hv]
  have : Params (UInt8.ofNat (k / 256) :: UInt8.ofNat (k % 256) :: UInt8.ofNat (v.length / 256) :: UInt8.ofNat (v.length % 256) :: (v ++ w)) :=
    .cons (by rw [hb _ hv]) (by rw [hb _ hk]; exact h1) h2
  simpa [net16] using this

theorem svcReads_ok {s w : List UInt8} (h : SvcReads s w) : w.length < 65536 → ¬ SvcIrregular s →
    Params w ∧ ∃ ps : List (Nat × List UInt8), (∀ p ∈ ps, p.1 < 65536 ∧ p.2.length < 65536 ∧ ParamExact p.1 p.2) ∧ w = ps.flatMap encParam := by
  induction h with
  | nil => intro _ _; exact ⟨.nil, [], by simp, rfl⟩
  | space _ ih => intro hl hi; exact ih hl fun h => hi (.space h)
  | @flag key s w h1 h2 h3 h4 _ ih =>
    intro hl hi
    obtain ⟨i1, ps, i2, i3⟩ := ih (by simp at hl; omega) fun h => hi (.flag h1 h2 h3 h)
    refine ⟨?_, (2, []) :: ps, ?_, ?_⟩
    · have := params_cons (k := 2) (v := []) (w := w) (by omega) (by simp) rfl i1
      simpa using this
    · intro p hp
      rcases List.mem_cons.mp hp with rfl | hp
      · exact ⟨by omega, by simp, by simp [EmptyList], by simp, by simp, by simp⟩
      · exact i2 p hp
    · rw [i3]; simp [encParam, net16]
  | @param key s x rest k v n w h1 h2 h3 h4 h5 h6 _ ih =>
    intro hl hi
    simp only [List.length_append] at hl
    obtain ⟨i1, ps, i2, i3⟩ := ih (by omega) fun h => hi (.param h1 h2 h3 h4 h5 h6 h)
    obtain ⟨rfl, j2, j3⟩ := valueReads_ok h6 (keyReads_lt h3) h4 (by
      rintro rfl ids hids
      constructor
      · intro h; exact hi (.alpn h1 h2 h3 h5 hids (Or.inl h))
      · intro i hm
        by_contra hc
        exact hi (.alpn h1 h2 h3 h5 hids (Or.inr ⟨i, hm, by omega⟩)))
    have hk := keyReads_lt h3
    refine ⟨params_cons (by omega) (by omega) j2 i1, (k, v) :: ps, ?_, ?_⟩
    · intro p hp
      rcases List.mem_cons.mp hp with rfl | hp
      · refine ⟨by omega, by simp only; omega, j3 ?_⟩
        rintro rfl
        constructor
        · intro h; exact hi (.ech h1 h2 h3 h5 h6 (Or.inl h))
        · by_contra hc
          exact hi (.ech h1 h2 h3 h5 h6 (Or.inr (by omega)))
      · exact i2 p hp
    · rw [i3, Nat.mod_eq_of_lt (by omega)]; simp [encParam]

theorem rrtype_le {t : Nat} {m : List UInt8} (h : rrtypeToStr t = some m) : t ≤ 65535 := by
  have hall : ∀ e ∈ rrtypeCases, e.1 ≤ 65535 := by decide
  exact hall _ (switchOf_mem h)

theorem fieldReads_ok {t : Rdf} {s f rest : List UInt8} (h : FieldReads t s f rest) (hn : ¬ IsName t) (hl : f.length < 65536)
    (hs : t = .svcparams → ¬ SvcIrregular s) :
    FieldOK t f ∧ (t ≠ .ipv6prefix → ∀ r, FieldExact t f r) ∧
      (t = .ipv6prefix → f.head? = some 0 → rest = []) := by
  cases h with
  | name h1 => rcases h1 with rfl | rfl <;> exact absurd trivial hn
  | @int _ k _ _ _ h1 =>
    simp only [List.mem_cons, Prod.mk.injEq, List.not_mem_nil, or_false] at h1
    rcases h1 with ⟨rfl, rfl⟩ | ⟨rfl, rfl⟩ | ⟨rfl, rfl⟩ <;>
      exact ⟨bigEndian_length _ _, fun _ _ => trivial, by simp⟩
  | ipv4 h1 h2 => exact ⟨ip4Reads_length h2, fun _ _ => trivial, by simp⟩
  | ipv6 h1 h2 => exact ⟨ip6Reads_length h2, fun _ _ => trivial, by simp⟩
  | @rrtype _ _ _ t h1 h2 h3 =>
    have ht : t ≤ 65535 := by
      rcases h2 with ⟨m, hm, -⟩ | ⟨-, h, -⟩
      · exact (rrtype_le hm)
      · exact h
    refine ⟨rfl, fun _ _ => ?_, by simp⟩
    show net16 t ≠ [0, 0]
    intro h
    simp only [net16, List.cons.injEq, and_true] at h
    have a1 := congrArg UInt8.toNat h.1
    have a2 := congrArg UInt8.toNat h.2
    simp only [UInt8.toNat_ofNat', UInt8.toNat_ofNat] at a1 a2
    omega
  | noSalt => exact ⟨⟨0, [], rfl, rfl⟩, fun _ _ => trivial, by simp⟩
  | salt h1 h2 h3 h4 => exact ⟨encString_ok (by omega), fun _ _ => trivial, by simp⟩
  | noHash => exact ⟨⟨0, [], rfl, rfl⟩, fun _ _ => trivial, by simp⟩
  | hash h1 h2 h3 h4 => exact ⟨encString_ok h4, fun _ _ => trivial, by simp⟩
  | string h1 h2 => exact ⟨encString_ok h2, fun _ _ => trivial, by simp⟩
  | repstring h1 => exact ⟨strings_flatMap (txtReads_le h1), fun _ _ => trivial, by simp⟩
  | bytes => exact ⟨trivial, fun _ _ => trivial, by simp⟩
  | bytesB64 => exact ⟨trivial, fun _ _ => trivial, by simp⟩
  | bytesStr => exact ⟨trivial, fun _ _ => trivial, by simp⟩
  | eui48 h1 h2 => exact ⟨h2, fun _ _ => trivial, by simp⟩
  | eui64 h1 h2 => exact ⟨h2, fun _ _ => trivial, by simp⟩
  | bitmap h1 h2 =>
    obtain ⟨ws, h3, rfl, -⟩ := h2
    exact ⟨windows_flatMap fun w hw => ⟨(h3.2 w hw).1, (h3.2 w hw).2.1⟩, fun _ _ => ⟨ws, h3, rfl⟩, by simp⟩
  | svcparams h1 =>
    obtain ⟨h2, h3⟩ := svcReads_ok h1 hl (hs rfl)
    exact ⟨h2, fun _ _ => h3, by simp⟩
  | @prefixFull _ _ _ _ _ _ rest' pl a h1 h2 h3 h4 h5 h6 h7 h8 h9 h10 =>
    have ha := ip6Reads_length h9
    have hp : (UInt8.ofNat pl).toNat = pl := by simp; omega
    refine ⟨⟨_, _, rfl, by rw [hp]; exact h4, by rw [hp, List.length_drop, ha]; omega⟩, by simp, ?_⟩
    intro _ h0
    simp only [List.head?_cons, Option.some.injEq] at h0
    have : pl = 0 := by rw [← hp, h0]; rfl
    rw [if_pos this]
  | prefixNone => exact ⟨⟨128, [], rfl, by decide, rfl⟩, by simp, by simp⟩

theorem scanned_nonblank {t : Rdf} {ts : List Rdf} {s w : List UInt8} (h : Scanned (t :: ts) s w) (hs : ∃ c ∈ s, ¬ IsBlank c) :
    ∃ b s' f rest w', s = b ++ s' ∧ w = f ++ w' ∧ FieldReads t s' f rest := by
  cases h with
  | stop h => obtain ⟨c, hc, hn⟩ := hs; exact absurd (h c hc) hn
  | field h1 h2 h3 h4 h5 => exact ⟨_, _, _, _, _, rfl, rfl, h4⟩

theorem scanned_blank {t : Rdf} {w : List UInt8} (h : Scanned [t] [] w) : w = [] := by
  generalize hr : ([] : List UInt8) = r at h
  cases h with
  | stop => exact hr
  | field _ k2 => simp at hr; exact absurd hr.2 k2

/-- What an accepted, regular text denotes is rdata whose text reads back as itself. -/
theorem scanned_exact {ts : List Rdf} {s w : List UInt8} (h : Scanned ts s w) : GoodTypes ts → w.length < 65536 → ¬ Irregular ts s →
    Exact ts w := by
  induction h with
  | done => intro _ _ _; exact .done
  | stop => intro _ _ _; exact .done
  | @field t ts b s f rest w h1 h2 h3 h4 h5 ih =>
    intro hg hl hi
    simp only [List.length_append] at hl
    have hE : Exact ts w := ih hg.2.2 (by omega) fun h => hi (.later h1 h2 h3 h4 h)
    by_cases hn : IsName t
    · have : ∃ tok n, Word s tok rest ∧ NameReads id tok n ∧ (wire n).length ≤ 255 ∧ f = wire n := by
        cases h4 <;> first | exact absurd hn (by intro h; exact h) | skip
        case name n b c _ a => exact ⟨_, n, a, b, c, rfl⟩
        case int =>
          rename _ ∈ _ => h
          simp only [List.mem_cons, Prod.mk.injEq, List.not_mem_nil, or_false] at h
          rcases h with ⟨rfl, -⟩ | ⟨rfl, -⟩ | ⟨rfl, -⟩ <;> exact hn.elim
      obtain ⟨tok, n, a1, a2, a3, rfl⟩ := this
      refine .name hn (nameReads_wf a2 a3 ?_) hE
      intro l hl
      by_contra hc
      exact hi (.label h1 hn a1 a2 ⟨l, hl, by omega⟩)
    · obtain ⟨g1, g2, g3⟩ := fieldReads_ok h4 hn (by omega) (by
        rintro rfl hs
        have : ts = [] := hg.1 (Or.inl trivial)
        subst this
        exact hi (.svc h1 hs))
      have hT : Terminal t → w = [] := by
        intro ht
        have : ts = [] := hg.1 (Or.inl ht)
        subst this
        cases h5
        rfl
      by_cases hne : f ++ w = []
      · rw [hne]; exact .done
      · refine .field g1 hne hT ?_ hE
        by_cases ht : t = .ipv6prefix
        · subst ht
          have hts : ts = [.uname] := hg.2.1 rfl
          subst hts
          constructor
          · intro h0
            have := g3 rfl h0
            subst this
            exact scanned_blank h5
          · intro h0 hw
            subst hw
            have hf : f = [128] := by
              obtain ⟨pl, q, rfl, p1, p2⟩ := g1
              simp only [List.head?_cons, Option.some.injEq] at h0
              subst h0
              have : q.length = 0 := p2
              rw [List.length_eq_zero_iff.mp this]
            subst hf
            by_cases hb : ∀ c ∈ rest, IsBlank c
            · exact hi (.prefix128 h1 h4 hb)
            · have : ∃ c ∈ rest, ¬ IsBlank c := by
                by_contra hc
                exact hb fun c hc' => by by_contra hx; exact hc ⟨c, hc', hx⟩
              obtain ⟨_, _, f', _, w', _, hw, hf⟩ := scanned_nonblank h5 this
              have : f' ≠ [] := by
                cases hf with
                | @name _ _ _ _ n =>
                  intro h
                  have : (wire n).length = 0 := by rw [h]; rfl
                  cases n <;> simp [wire] at this
                | int h => simp at h
              simp at hw
              exact this hw.1
        · exact g2 ht w

theorem conforms_of_exact {ts : List Rdf} {w : List UInt8} (h : Exact ts w) : Conforms ts w := by
  induction h with
  | done => exact .done
  | name h1 h2 _ ih => exact .name h1 h2 ih
  | field h1 h2 h3 _ _ ih => exact .field h1 h2 h3 ih

end Wdns
