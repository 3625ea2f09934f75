import Verif.Lemmas.ScanMore

/-! Helper lemmas: SvcParams and type bitmaps read back what `wdns_rdata_to_str` writes for them. -/

namespace Wdns
open Outcome Spec

/-! ## type bitmaps -/

theorem typeList_spaced (ts : List Nat) (h : ∀ t ∈ ts, t < 65536) : TypeList (spaced (ts.map typeText)) ts := by
  induction ts with
  | nil => exact .nil
  | cons t ts ih =>
    have ht := typeName_typeText (h t (by simp))
    cases ts with
    | nil => rw [List.map_cons, spaced_tails]; simpa [tails] using TypeList.last ht
    | cons t2 ts =>
      have e : spaced (List.map typeText (t :: t2 :: ts)) = typeText t ++ 32 :: spaced (List.map typeText (t2 :: ts)) := by
        simp only [List.map_cons]
        rw [spaced_tails, spaced_tails]
        simp [tails]
      rw [e]
      exact .cons ht (Or.inl rfl) (ih fun t ht => h t (by simp [ht]))

theorem windowTypes_lt {ws : List (UInt8 × List UInt8)} (h : ∀ w ∈ ws, w.2.length ≤ 32) : ∀ t ∈ ws.flatMap windowTypes, t < 65536 := by
  intro t ht
  obtain ⟨w, hw, ht⟩ := List.mem_flatMap.mp ht
  obtain ⟨i, hi, rfl⟩ := mem_windowTypes.mp ht
  have := mem_win_lt (h w hw) hi
  have := u8_lt w.1
  omega

/-- Reading the text of a bitmap gives the canonical bitmap of the same set. -/
theorem scan_bitmap {ws : List (UInt8 × List UInt8)} (h : ∀ w ∈ ws, w.2.length ≤ 32) (u : List UInt8) :
    ∃ p f, sFields [.typeBitmap] (some (spaced ((ws.flatMap windowTypes).map typeText))) u = ok (.go p (u ++ f)) ∧
      CanonBitmap f (· ∈ ws.flatMap windowTypes) :=
  sFields_bitmap (typeList_spaced _ (windowTypes_lt h)) u

/-! ## splitting at commas -/

theorem strtok_run (sep : UInt8 → Bool) (t : List UInt8) (ht : ∀ c ∈ t, sep c = false) (rest : List UInt8) : ∀ cur,
    strtok sep (t ++ rest) cur = strtok sep rest (cur ++ t) := by
  induction t with
  | nil => intro cur; simp
  | cons c t ih =>
    intro cur
    rw [List.cons_append, strtok, ht c (by simp)]
    rw [if_neg (by simp), ih (fun c hc => ht c (by simp [hc]))]
    simp

theorem strtok_one (sep : UInt8 → Bool) (t : List UInt8) (ht : ∀ c ∈ t, sep c = false) (hne : t ≠ []) : strtok sep t [] = [t] := by
  have := strtok_run sep t ht [] []
  rw [List.append_nil, List.nil_append] at this
  rw [this, strtok, if_neg hne]

theorem strtok_commas (items : List (List UInt8)) (h : ∀ t ∈ items, t ≠ [] ∧ ∀ c ∈ t, c ≠ 44) :
    strtok (· = 44) (commas items) [] = items := by
  induction items with
  | nil => rfl
  | cons t ts ih =>
    obtain ⟨h1, h2⟩ := h t (by simp)
    have h2' : ∀ c ∈ t, decide (c = 44) = false := fun c hc => by simp [h2 c hc]
    cases ts with
    | nil =>
      have : commas [t] = t := intercalate_one
      rw [this]
      exact strtok_one _ t h2' h1
    | cons t2 ts =>
      have e : commas (t :: t2 :: ts) = t ++ 44 :: commas (t2 :: ts) := by
        unfold commas; rw [intercalate_cons_cons]; simp
      rw [e, strtok_run _ t h2', strtok, if_pos (by rfl), List.nil_append, if_neg h1, ih fun t ht => h t (by simp [ht])]

/-! ## the values -/

theorem cstrOf_graphic {t : List UInt8} (h : Graphic t) : cstrOf t = t :=
  cstrOf_of fun b hb e => by have := (h b hb).1; rw [e] at this; simp at this

theorem words16_htons (v : List UInt8) (h : v.length % 2 = 0) : (words16 v).flatMap htons = v := by
  fun_induction words16 v with
  | case1 a b rest ih =>
    rw [List.flatMap_cons, ih (by simp at h; omega)]
    have e := ofNat_be16 a b
    have e2 : UInt8.ofNat (be16 a b % 256) = UInt8.ofNat (be16 a b) := by
      apply UInt8.toNat.inj; rw [UInt8.toNat_ofNat', UInt8.toNat_ofNat']; omega
    unfold htons
    rw [e2, e]
    rfl
  | case2 v hv =>
    match v, h with
    | [], _ => rfl
    | [a], h => simp at h
    | a :: b :: r, _ => exact absurd rfl (hv a b r)

theorem words16_length (v : List UInt8) : (words16 v).length = v.length / 2 := by
  fun_induction words16 v with
  | case1 a b rest ih => simp only [List.length_cons, ih]; omega
  | case2 v hv =>
    match v with
    | [] => rfl
    | [a] => simp
    | a :: b :: r => exact absurd rfl (hv a b r)

theorem svcMandTok_keys (ks : List Nat) (h : ∀ k ∈ ks, k < 65535) : ∀ (n : Nat) (u : List UInt8), n + 2 * ks.length < 65536 →
    svcMandTok (ks.map keyText) n u = (.success, n + 2 * ks.length, u ++ ks.flatMap htons) := by
  induction ks with
  | nil => intro n u _; simp [svcMandTok]
  | cons k ks ih =>
    intro n u hn
    have hk := h k (by simp)
    have e : strToSvcparamkey (keyText k) = k := by
      have := C50_svcparamkey k hk
      rwa [keyText_eq, if_neg (by omega)] at this
    simp only [List.length_cons] at hn ⊢
    rw [List.map_cons, svcMandTok]
    simp only [e]
    rw [if_neg (by omega), Nat.mod_eq_of_lt (by omega), ih (fun k hk => h k (by simp [hk])) _ _ (by omega)]
    simp only [List.flatMap_cons, List.append_assoc, Prod.mk.injEq, and_true, true_and]
    omega

theorem svcIpTok_list (pton : List UInt8 → Option (List UInt8)) (sz : Nat) (text : List UInt8 → List UInt8) (bs : List (List UInt8))
    (h : ∀ b ∈ bs, pton (text b) = some b) : ∀ (n : Nat) (u : List UInt8), n + sz * bs.length < 65536 →
    svcIpTok pton sz (bs.map text) n u = (.success, n + sz * bs.length, u ++ bs.flatMap id) := by
  induction bs with
  | nil => intro n u _; simp [svcIpTok]
  | cons b bs ih =>
    intro n u hn
    simp only [List.length_cons, Nat.mul_add, Nat.mul_one] at hn ⊢
    rw [List.map_cons, svcIpTok, h b (by simp)]
    simp only
    rw [Nat.mod_eq_of_lt (by omega), ih (fun b hb => h b (by simp [hb])) _ _ (by omega)]
    simp only [List.flatMap_cons, List.append_assoc, Prod.mk.injEq, and_true, true_and, id]
    omega

theorem blocks_flat (sz : Nat) (v : List UInt8) : ∀ n, n * sz ≤ v.length → ((List.range n).map (block sz v)).flatMap id = v.take (n * sz) := by
  intro n
  induction n with
  | zero => intro _; simp
  | succ n ih =>
    intro h
    have : n * sz ≤ v.length := by rw [Nat.succ_mul] at h; omega
    rw [List.range_succ, List.map_append, List.flatMap_append, ih this]
    simp only [List.map_cons, List.map_nil, List.flatMap_cons, List.flatMap_nil, List.append_nil, id, block]
    rw [Nat.succ_mul, List.take_add, Nat.mul_comm sz n]

theorem block_length {sz : Nat} {v : List UInt8} {n i : Nat} (h : n * sz ≤ v.length) (hi : i < n) : (block sz v i).length = sz := by
  unfold block
  have : (i + 1) * sz ≤ n * sz := Nat.mul_le_mul_right _ hi
  rw [Nat.succ_mul] at this
  rw [Nat.mul_comm sz i]
  simp only [List.length_take, List.length_drop]
  omega

theorem alpn_esc (d : UInt8) (ds : List UInt8) (off oc n : Nat) (u : List UInt8) (h : d = 92 ∨ d = 44) :
    svcAlpnTok (92 :: d :: ds) off oc n u = svcAlpnTok ds off ((oc + 1) % 256) n (u ++ [d]) := by
  rw [svcAlpnTok.eq_def]
  simp only [if_true]
  rw [if_neg (by rintro ⟨a, b⟩; rcases h with h | h; exact a h; exact b h)]

theorem alpn_comma (cs : List UInt8) (off oc n : Nat) (u : List UInt8) :
    svcAlpnTok (44 :: cs) off oc n u = svcAlpnTok cs u.length 0 ((n + oc + 1) % 65536) (u.set off (UInt8.ofNat oc) ++ [0]) := by
  rw [svcAlpnTok.eq_def]
  simp

theorem alpn_char (c : UInt8) (cs : List UInt8) (off oc n : Nat) (u : List UInt8) (h : c ≠ 92) (h' : c ≠ 44) :
    svcAlpnTok (c :: cs) off oc n u = svcAlpnTok cs off ((oc + 1) % 256) n (u ++ [c]) := by
  rw [svcAlpnTok.eq_def]
  simp only
  rw [if_neg h, if_neg h']

theorem alpn_item (s rest : List UInt8) : ∀ (off oc n : Nat) (u : List UInt8), oc + s.length < 256 →
    svcAlpnTok (listItem s ++ rest) off oc n u = svcAlpnTok rest off (oc + s.length) n (u ++ s) := by
  induction s with
  | nil => intro off oc n u _; simp [listItem]
  | cons c s ih =>
    intro off oc n u h
    simp only [List.length_cons] at h ⊢
    have e : listItem (c :: s) = (if c.toNat = 44 ∨ c.toNat = 92 then [92, c] else [c]) ++ listItem s := rfl
    rw [e, List.append_assoc]
    by_cases hc : c.toNat = 44 ∨ c.toNat = 92
    · have hc' : c = 92 ∨ c = 44 := by
        rcases hc with hc | hc
        · exact Or.inr (UInt8.toNat.inj hc)
        · exact Or.inl (UInt8.toNat.inj hc)
      rw [if_pos hc, List.cons_append, List.cons_append, List.nil_append, alpn_esc c _ _ _ _ _ hc',
        Nat.mod_eq_of_lt (by omega), ih _ _ _ _ (by omega)]
      simp only [List.append_assoc, List.cons_append, List.nil_append]
      congr 1
      omega
    · rw [if_neg hc, List.cons_append, List.nil_append, alpn_char c _ _ _ _ _ (fun e => hc (Or.inr (by rw [e]; rfl)))
        (fun e => hc (Or.inl (by rw [e]; rfl))), Nat.mod_eq_of_lt (by omega), ih _ _ _ _ (by omega)]
      simp only [List.append_assoc, List.cons_append, List.nil_append]
      congr 1
      omega

theorem commas_cons_cons (t t2 : List UInt8) (ts : List (List UInt8)) : commas (t :: t2 :: ts) = t ++ 44 :: commas (t2 :: ts) := by
  unfold commas; rw [intercalate_cons_cons]; simp

theorem alpn_list (id : List UInt8) (hid : id ≠ []) (ids : List (List UInt8)) (h : ∀ s ∈ ids ++ [id], s.length < 256) : ∀ (n : Nat) (b : List UInt8),
    n + ((ids ++ [id]).flatMap encString).length < 65536 →
    svcAlpnTok (commas ((ids ++ [id]).map listItem)) b.length 0 n (b ++ [0]) =
      (.success, n + ((ids ++ [id]).flatMap encString).length, b ++ (ids ++ [id]).flatMap encString) := by
  induction ids with
  | nil =>
    intro n b hn
    simp only [List.nil_append] at h hn ⊢
    have hl := h id (by simp)
    have := List.length_pos_of_ne_nil hid
    have e : commas ([id].map listItem) = listItem id ++ [] := by simp [commas, intercalate_one]
    simp only [List.flatMap_cons, List.flatMap_nil, List.append_nil, encString, List.length_cons] at hn ⊢
    rw [e, alpn_item id [] _ _ _ _ (by omega), svcAlpnTok, if_pos (by omega), set_after, Nat.mod_eq_of_lt (by omega)]
    simp only [Nat.zero_add]
    rfl
  | cons s ids ih =>
    intro n b hn
    have hs := h s (by simp)
    obtain ⟨t2, ts, ht⟩ : ∃ t2 ts, ids ++ [id] = t2 :: ts := by
      cases ids with
      | nil => exact ⟨id, [], rfl⟩
      | cons x xs => exact ⟨x, xs ++ [id], rfl⟩
    simp only [List.cons_append, List.flatMap_cons, List.length_append] at hn ⊢
    have hel : (encString s).length = s.length + 1 := rfl
    rw [ht] at hn ⊢
    simp only [List.map_cons]
    rw [commas_cons_cons, alpn_item s _ _ _ _ _ (by omega), alpn_comma, set_after,
      Nat.mod_eq_of_lt (by omega)]
    have := ih (fun x hx => h x (by simp at hx ⊢; right; exact hx)) (n + (0 + s.length) + 1) (b ++ encString s)
    rw [ht] at this
    have e1 : b ++ UInt8.ofNat (0 + s.length) :: s = b ++ encString s := by rw [Nat.zero_add]; rfl
    have e2 : (b ++ [0] ++ s).length = (b ++ encString s).length := by simp [encString]
    rw [e1, e2]
    simp only [List.map_cons] at this
    rw [this (by omega)]
    simp only [List.append_assoc, Prod.mk.injEq, and_true, true_and, hel]
    omega

theorem encStrings_inj : ∀ {a b : List (List UInt8)}, (∀ s ∈ a, s.length < 256) → (∀ s ∈ b, s.length < 256) →
    a.flatMap encString = b.flatMap encString → a = b := by
  intro a
  induction a with
  | nil =>
    intro b _ _ h
    cases b with
    | nil => rfl
    | cons s b => simp [encString] at h
  | cons s a ih =>
    intro b ha hb h
    cases b with
    | nil => simp [encString] at h
    | cons s' b =>
      have h1 := ha s (by simp)
      have h2 := hb s' (by simp)
      simp only [List.flatMap_cons, encString, List.cons_append, List.cons.injEq] at h
      have hl : s.length = s'.length := by
        have := congrArg UInt8.toNat h.1
        rwa [toNat_ofNat_lt h1, toNat_ofNat_lt h2] at this
      obtain ⟨e1, e2⟩ := List.append_inj h.2 hl
      rw [e1, ih (fun x hx => ha x (by simp [hx])) (fun x hx => hb x (by simp [hx])) e2]

theorem commas_ne_nil {items : List (List UInt8)} (h0 : items ≠ []) (h : ∀ t ∈ items, t ≠ []) : commas items ≠ [] := by
  cases items with
  | nil => exact absurd rfl h0
  | cons t ts =>
    have := h t (by simp)
    cases ts with
    | nil => rw [show commas [t] = t from intercalate_one]; exact this
    | cons t2 ts => rw [commas_cons_cons]; simp

theorem bare_commas {items : List (List UInt8)} (h : ∀ t ∈ items, Plain t) : Bare (commas items) := by
  induction items with
  | nil => intro c hc; simp [commas, intercalate_nil] at hc
  | cons t ts ih =>
    have h1 := h t (by simp)
    have hb : Bare t := fun c hc => ⟨(h1 c hc).1, (h1 c hc).2.1, (h1 c hc).2.2.1, (h1 c hc).2.2.2.2.2⟩
    cases ts with
    | nil => rw [show commas [t] = t from intercalate_one]; exact hb
    | cons t2 ts =>
      rw [commas_cons_cons]
      intro c hc
      rcases List.mem_append.mp hc with hc | hc
      · exact hb c hc
      · rcases List.mem_cons.mp hc with rfl | hc
        · decide
        · exact ih (fun t ht => h t (by simp [ht])) c hc

theorem Bare.graphic {t : List UInt8} (h : Bare t) : Graphic t := fun c hc => ⟨(h c hc).1, (h c hc).2.1⟩

theorem bare_of_plain {t : List UInt8} (h : Plain t) : Bare t :=
  fun c hc => ⟨(h c hc).1, (h c hc).2.1, (h c hc).2.2.1, (h c hc).2.2.2.2.2⟩

theorem plain_noComma {t : List UInt8} (h : Plain t) : ∀ c ∈ t, c ≠ 44 := fun c hc e => (h c hc).2.2.2.2.1 (by rw [e]; rfl)

theorem keyText_ne_nil (k : Nat) : keyText k ≠ [] := by
  unfold keyText
  split <;> first | decide | (intro h; have := congrArg List.length h; simp [ascii] at this)

theorem quadText_ne_nil (v : List UInt8) : quadText v ≠ [] := by
  unfold quadText dottedQuad
  simp

theorem ip6Text_ne_nil {a : List UInt8} (h : a.length = 16) : ip6Text a ≠ [] := by
  intro e
  have := pton6_ip6Text h
  rw [e] at this
  simp [inetPton6] at this

theorem pton4_quad {b : List UInt8} (h : b.length = 4) : inetPton4 (quadText b) = some b := by
  match b, h with
  | [a, b, c, d], _ => exact pton4_dottedQuad a b c d

/-- The value is read back, whatever follows. -/
def ReadsAs (k : Nat) (v t : List UInt8) : Prop :=
  ∃ val, t ≠ [] ∧ (∀ rest u, Sep rest → rdataFromStrString (t ++ rest) u = (t.length, u ++ val)) ∧
    ∀ b, svcValue k val b = ok (.success, v.length, b ++ v)

theorem readsAs_bare {k : Nat} {v t : List UInt8} (ht : Bare t) (hne : t ≠ []) (h : ∀ b, svcValue k t b = ok (.success, v.length, b ++ v)) :
    ReadsAs k v t := ⟨t, hne, fun _ u hs => fromStr_bare ht hne hs u, h⟩

theorem readsAs_quoted {k : Nat} {v s : List UInt8} (h : ∀ b, svcValue k s b = ok (.success, v.length, b ++ v)) :
    ReadsAs k v (quoted s) :=
  ⟨s, by unfold quoted; simp, fun rest u _ => fromStr_quoted s rest u, h⟩

theorem svc_readsAs {k : Nat} {v t : List UInt8} (ht : SvcText k v t) (hv : SvcValueOK k v) (hk : k < 65536) (h2 : k ≠ 2)
    (hl : v.length < 65536) (hx : ParamExact k v) : ReadsAs k v t := by
  obtain ⟨x1, x2, x3, x4⟩ := hx
  by_cases h0 : k = 0
  · subst h0
    simp only [SvcText, SvcValueOK] at ht hv
    have hw := words16_lt v
    have hno := x2 rfl
    have hks : ∀ k ∈ words16 v, k < 65535 := by
      intro k hk
      have := hw k hk
      have : k ≠ 65535 := fun e => hno (e ▸ hk)
      omega
    have e : (words16 v).map (fun k => if k = 65535 then ascii "invalid key" else keyText k) = (words16 v).map keyText :=
      List.map_congr_left fun k hk => by rw [if_neg (by have := hks k hk; omega)]
    rw [e] at ht
    have hne : v ≠ [] := fun e => x1 ⟨e, Or.inl rfl⟩
    have hvl := List.length_pos_of_ne_nil hne
    have hwl := words16_length v
    have hwne : words16 v ≠ [] := by intro e; rw [e] at hwl; simp at hwl; omega
    have hit : ∀ x ∈ (words16 v).map keyText, Plain x ∧ x ≠ [] := by
      intro x hx
      obtain ⟨k, _, rfl⟩ := List.mem_map.mp hx
      exact ⟨plain_keyText k, keyText_ne_nil k⟩
    have hb : Bare t := by rw [ht]; exact bare_commas fun x hx => (hit x hx).1
    refine readsAs_bare hb (by rw [ht]; exact commas_ne_nil (by simp [hwne]) fun x hx => (hit x hx).2) fun b => ?_
    unfold svcValue
    simp only [if_true]
    rw [cstrOf_graphic hb.graphic, ht, strtok_commas _ fun x hx => ⟨(hit x hx).2, plain_noComma (hit x hx).1⟩, if_neg (by simp [hwne]),
      svcMandTok_keys _ hks 0 b (by omega), words16_htons v hv]
    congr 2
    simp only [Prod.mk.injEq, and_true]
    omega
  by_cases h3 : k = 3
  · subst h3
    simp only [SvcText] at ht
    obtain ⟨a, c, rfl, rfl⟩ := ht
    have hp := plain_decText (be16 a c)
    refine readsAs_bare (bare_of_plain hp) (decText_ne_nil _) fun b => ?_
    have hlt := be16_lt a c
    unfold svcValue svcPortTok
    simp only [Nat.reduceEqDiff, if_false, if_true]
    rw [cstrOf_graphic hp.graphic, strtok_one _ _ (fun c hc => by
      have := (hp c hc).1
      simp only [decide_eq_false_iff_not]
      rintro rfl
      simp at this) (decText_ne_nil _)]
    simp only [List.head?_cons, strtoul_dec (decText_isDecimal _) (show be16 a c < 2 ^ 64 by omega)]
    rw [if_neg (by simp; omega)]
    have e := ofNat_be16 a c
    have e2 : UInt8.ofNat (be16 a c % 256) = UInt8.ofNat (be16 a c) := by
      apply UInt8.toNat.inj; rw [UInt8.toNat_ofNat', UInt8.toNat_ofNat']; omega
    unfold htons
    rw [e2, e]
    rfl
  by_cases h5 : k = 5
  · subst h5
    simp only [SvcText] at ht
    obtain ⟨hne, hle⟩ := x4 rfl
    obtain ⟨-, r2, -, r4⟩ := C51_base64_round_trip v
    have hp := plain_base64 v
    have hvl := List.length_pos_of_ne_nil hne
    have htne : base64 v ≠ [] := by intro e; rw [e] at r2; simp at r2; omega
    subst ht
    refine readsAs_bare (bare_of_plain hp) htne fun b => ?_
    unfold svcValue svcEchTok
    simp only [Nat.reduceEqDiff, if_false, if_true]
    rw [cstrOf_graphic hp.graphic, strtok_one _ _ (fun c hc => by
      have := (hp c hc).1
      simp only [decide_eq_false_iff_not]
      rintro rfl
      simp at this) htne]
    simp only [List.head?_cons]
    rw [if_neg (by omega), r4, ok_bind, Nat.mod_eq_of_lt hl]
  by_cases h4 : k = 4
  · subst h4
    simp only [SvcText, SvcValueOK] at ht hv
    have hne : v ≠ [] := fun e => x1 ⟨e, Or.inr (Or.inl rfl)⟩
    have hvl := List.length_pos_of_ne_nil hne
    have e : (List.range (v.length / 4)).map (fun i => quadText (block 4 v i)) = ((List.range (v.length / 4)).map (block 4 v)).map quadText := by
      rw [List.map_map]; rfl
    rw [e] at ht
    have hle : v.length / 4 * 4 ≤ v.length := by omega
    have hbl : ∀ b ∈ (List.range (v.length / 4)).map (block 4 v), b.length = 4 := by
      intro b hb
      obtain ⟨i, hi, rfl⟩ := List.mem_map.mp hb
      exact block_length hle (List.mem_range.mp hi)
    have hit : ∀ x ∈ ((List.range (v.length / 4)).map (block 4 v)).map quadText, Plain x ∧ x ≠ [] := by
      intro x hx
      obtain ⟨k, _, rfl⟩ := List.mem_map.mp hx
      exact ⟨plain_dottedQuad _ _ _ _, quadText_ne_nil _⟩
    have h0 : ((List.range (v.length / 4)).map (block 4 v)).map quadText ≠ [] := by
      intro e; have := congrArg List.length e; simp at this; omega
    have hb : Bare t := by rw [ht]; exact bare_commas fun x hx => (hit x hx).1
    refine readsAs_bare hb (by rw [ht]; exact commas_ne_nil h0 fun x hx => (hit x hx).2) fun b => ?_
    unfold svcValue
    simp only [Nat.reduceEqDiff, if_false, if_true]
    rw [cstrOf_graphic hb.graphic, ht, strtok_commas _ fun x hx => ⟨(hit x hx).2, plain_noComma (hit x hx).1⟩, if_neg h0,
      svcIpTok_list inetPton4 4 quadText _ (fun b hb => pton4_quad (hbl b hb)) 0 b (by simp; omega), blocks_flat 4 v _ hle,
      List.take_of_length_le (by omega)]
    congr 2
    simp only [Prod.mk.injEq, and_true, List.length_map, List.length_range]
    omega
  by_cases h6 : k = 6
  · subst h6
    simp only [SvcText, SvcValueOK] at ht hv
    have hne : v ≠ [] := fun e => x1 ⟨e, Or.inr (Or.inr rfl)⟩
    have hvl := List.length_pos_of_ne_nil hne
    have e : (List.range (v.length / 16)).map (fun i => ip6Text (block 16 v i)) = ((List.range (v.length / 16)).map (block 16 v)).map ip6Text := by
      rw [List.map_map]; rfl
    rw [e] at ht
    have hle : v.length / 16 * 16 ≤ v.length := by omega
    have hbl : ∀ b ∈ (List.range (v.length / 16)).map (block 16 v), b.length = 16 := by
      intro b hb
      obtain ⟨i, hi, rfl⟩ := List.mem_map.mp hb
      exact block_length hle (List.mem_range.mp hi)
    have hit : ∀ x ∈ ((List.range (v.length / 16)).map (block 16 v)).map ip6Text, Plain x ∧ x ≠ [] := by
      intro x hx
      obtain ⟨k, hk, rfl⟩ := List.mem_map.mp hx
      exact ⟨plain_ip6Text _, ip6Text_ne_nil (hbl k hk)⟩
    have h0 : ((List.range (v.length / 16)).map (block 16 v)).map ip6Text ≠ [] := by
      intro e; have := congrArg List.length e; simp at this; omega
    have hb : Bare t := by rw [ht]; exact bare_commas fun x hx => (hit x hx).1
    refine readsAs_bare hb (by rw [ht]; exact commas_ne_nil h0 fun x hx => (hit x hx).2) fun b => ?_
    unfold svcValue
    simp only [Nat.reduceEqDiff, if_false, if_true]
    rw [cstrOf_graphic hb.graphic, ht, strtok_commas _ fun x hx => ⟨(hit x hx).2, plain_noComma (hit x hx).1⟩, if_neg h0,
      svcIpTok_list inetPton6 16 ip6Text _ (fun b hb => pton6_ip6Text (hbl b hb)) 0 b (by simp; omega), blocks_flat 16 v _ hle,
      List.take_of_length_le (by omega)]
    congr 2
    simp only [Prod.mk.injEq, and_true, List.length_map, List.length_range]
    omega
  by_cases h1 : k = 1
  · subst h1
    simp only [SvcText] at ht
    obtain ⟨ids', y1, y2, rfl⟩ := ht
    obtain ⟨ids, id, z1, z2, z3⟩ := x3 rfl
    have e : ids' = ids ++ [id] := encStrings_inj y1 z1 (by rw [← y2, ← z3])
    subst e
    refine readsAs_quoted fun b => ?_
    unfold svcValue
    simp only [Nat.reduceEqDiff, if_false, if_true]
    rw [alpn_list id z2 ids z1 0 b (by rw [← z3]; omega), ← z3, Nat.zero_add]
  · have ht' : t = quoted v := by
      unfold SvcText at ht
      split at ht <;> first | exact absurd rfl (by assumption) | exact ht
    subst ht'
    refine readsAs_quoted fun b => ?_
    unfold svcValue
    simp only [h0, h1, h3, h4, h5, h6, if_false]
    rw [Nat.mod_eq_of_lt hl]

/-! ## the list -/

theorem keyText_plainer (k : Nat) : ∀ c ∈ keyText k, c ≠ 61 ∧ c ≠ 32 := by
  have hfin : ∀ k < 7, ∀ c ∈ keyText k, c ≠ 61 ∧ c ≠ 32 := by decide +kernel
  by_cases h7 : k < 7
  · exact hfin k h7
  · have e : keyText k = ascii "key" ++ decText k := by
      unfold keyText
      split <;> first | omega | rfl
    rw [e]
    have hk : ∀ c ∈ ascii "key", c ≠ 61 ∧ c ≠ 32 := by decide +kernel
    intro c hc
    rcases List.mem_append.mp hc with hc | hc
    · exact hk c hc
    · have := List.all_eq_true.mp (decText_digits k) c hc
      unfold isDigit at this
      constructor
      · rintro rfl; revert this; decide
      · rintro rfl; revert this; decide

theorem poke2_after (u v : List UInt8) (x y : UInt8) (b : List UInt8) (hb : b.length = 2) :
    poke2 (u ++ [x, y] ++ v) u.length b = u ++ b ++ v := by
  match b, hb with
  | [p, q], _ =>
    unfold poke2
    simp only [List.getD_cons_zero, List.getD_cons_succ, List.append_assoc]
    rw [List.set_append_right _ _ (Nat.le_refl _), List.set_append_right _ _ (by omega)]
    simp

theorem strToSvcparam_value {k : Nat} {v val : List UInt8} (hk : k < 65535) (h2 : k ≠ 2)
    (h : ∀ b, svcValue k val b = ok (.success, v.length, b ++ v)) (u : List UInt8) :
    strToSvcparam u k (some val) = ok (.success, u ++ encParam (k, v)) := by
  unfold strToSvcparam
  rw [if_neg (by omega)]
  simp only
  rw [if_neg h2, h, ok_bind]
  simp only
  rw [if_neg (by simp), poke2_after _ _ _ _ _ rfl]
  simp only [encParam, net16, htons, List.append_assoc]

theorem sSvcparams_cons (fuel : Nat) (c : UInt8) (cs u : List UInt8) : sSvcparams (fuel + 1) (c :: cs) u =
      if c = 32 then sSvcparams fuel cs u
      else
        let key := (c :: cs).takeWhile fun c => c ≠ 61 ∧ c ≠ 32
        let val := (c :: cs).drop key.length
        let k := strToSvcparamkey key
        if k = 65535 then ok (.bad .parseError u)
        else if val = [] ∨ val.head? = some 32 then
          if k ≠ 2 then ok (.bad .parseError u)
          else strToSvcparam u k none >>= fun r => if r.1 ≠ .success then ok (.bad r.1 r.2) else sSvcparams fuel val r.2
        else
          let val := val.drop 1
          let r := rdataFromStrString val u
          if r.1 = 0 then ok (.bad .parseError r.2)
          else strToSvcparam (r.2.take u.length) k (some (r.2.drop u.length)) >>= fun r' =>
            if r'.1 ≠ .success then ok (.bad r'.1 r'.2) else sSvcparams fuel (val.drop r.1) r'.2 := rfl

theorem scan_param {k : Nat} {v t : List UInt8} (ht : SvcText k v t) (hv : SvcValueOK k v) (hk : k < 65536)
    (hl : v.length < 65536) (hx : ParamExact k v) {rest : List UInt8} (hs : Sep rest) (u : List UInt8) (fuel : Nat) :
    sSvcparams (fuel + 1) (paramText k t ++ rest) u = sSvcparams fuel rest (u ++ encParam (k, v)) := by
  have hk' : k < 65535 := by
    have : k ≠ 65535 := by rintro rfl; exact hv
    omega
  have hkey := keyText_plainer k
  have hne := keyText_ne_nil k
  have e : strToSvcparamkey (keyText k) = k := by
    have := C50_svcparamkey k hk'
    rwa [keyText_eq, if_neg (by omega)] at this
  obtain ⟨c, cs, hc⟩ : ∃ c cs, keyText k = c :: cs := by
    cases h : keyText k with
    | nil => exact absurd h hne
    | cons c cs => exact ⟨c, cs, rfl⟩
  have hstop : ∀ rest' : List UInt8, (∀ x, rest'.head? = some x → x = 61 ∨ x = 32) →
      (keyText k ++ rest').takeWhile (fun c => decide (c ≠ 61 ∧ c ≠ 32)) = keyText k := by
    intro rest' hr
    refine takeWhile_app (fun x hx => by simp [hkey x hx]) fun x hx => ?_
    rcases hr x hx with rfl | rfl <;> decide
  have hstep : ∀ rest' : List UInt8, (∀ x, rest'.head? = some x → x = 61 ∨ x = 32) → sSvcparams (fuel + 1) (keyText k ++ rest') u =
       if rest' = [] ∨ rest'.head? = some 32 then
          if k ≠ 2 then ok (.bad .parseError u)
          else strToSvcparam u k none >>= fun r => if r.1 ≠ .success then ok (.bad r.1 r.2) else sSvcparams fuel rest' r.2
        else
          let val := rest'.drop 1
          let r := rdataFromStrString val u
          if r.1 = 0 then ok (.bad .parseError r.2)
          else strToSvcparam (r.2.take u.length) k (some (r.2.drop u.length)) >>= fun r' =>
            if r'.1 ≠ .success then ok (.bad r'.1 r'.2) else sSvcparams fuel (val.drop r.1) r'.2 := by
    intro rest' hr
    have h1 := hstop rest' hr
    have h2 : (keyText k ++ rest').drop (keyText k).length = rest' := List.drop_left
    have hc32 : c ≠ 32 := (hkey c (by rw [hc]; simp)).2
    have hcons : keyText k ++ rest' = c :: (cs ++ rest') := by rw [hc]; rfl
    rw [hcons, sSvcparams_cons, if_neg hc32, ← hcons]
    simp only [h1, h2, e]
    rw [if_neg (by omega)]
  unfold paramText
  by_cases h2 : k = 2
  · subst h2
    have hv' : v = [] := hv
    rw [if_pos rfl, List.append_nil, hstep rest (by
      intro x hx
      right
      rcases hs with rfl | hs
      · simp at hx
      · rw [hs] at hx; exact (Option.some.inj hx).symm)]
    rw [if_pos (by rcases hs with h | h; exact Or.inl h; exact Or.inr h), if_neg (by simp)]
    have : strToSvcparam u 2 none = ok (.success, u ++ encParam (2, v)) := by
      unfold strToSvcparam
      simp [hv', encParam, net16, htons]
    rw [this, ok_bind]
    simp
  · obtain ⟨val, r1, r2, r3⟩ := svc_readsAs ht hv hk h2 hl hx
    rw [if_neg h2, List.append_assoc, List.cons_append, hstep (61 :: (t ++ rest)) (by simp), if_neg (by simp)]
    simp only [List.drop_succ_cons, List.drop_zero, r2 rest u hs]
    have := List.length_pos_of_ne_nil r1
    rw [if_neg (by omega), List.take_left, List.drop_left, strToSvcparam_value hk' h2 r3 u, ok_bind, if_neg (by simp), List.drop_left]

theorem scan_params {ps : List (Nat × List UInt8)} {toks : List (List UInt8)} (h : ParamToks ps toks) :
    (∀ p ∈ ps, p.1 < 65536 ∧ p.2.length < 65536 ∧ SvcValueOK p.1 p.2 ∧ ParamExact p.1 p.2) → ∀ (u : List UInt8) (fuel : Nat), (spaced toks).length + 1 ≤ fuel →
    sSvcparams fuel (spaced toks) u = ok (.go (some []) (u ++ ps.flatMap encParam)) := by
  induction h with
  | nil =>
    intro _ u fuel hf
    obtain ⟨k, rfl⟩ : ∃ k, fuel = k + 1 := ⟨fuel - 1, by omega⟩
    simp [spaced, sSvcparams]
  | @cons k v t ps toks h1 h2 h3 ih =>
    intro hp u fuel hf
    obtain ⟨x1, x2, x3, x4⟩ := hp (k, v) (by simp)
    rw [spaced_tails] at hf ⊢
    have hpl : 1 ≤ (paramText k t).length := by
      unfold paramText
      have := List.length_pos_of_ne_nil (keyText_ne_nil k)
      simp only [List.length_append]
      omega
    obtain ⟨j, rfl⟩ : ∃ k, fuel = k + 1 := ⟨fuel - 1, by omega⟩
    rw [scan_param h2 x3 x1 x2 x4 (sep_tails toks)]
    have ih := ih (fun p hp' => hp p (by simp [hp'])) (u ++ encParam (k, v))
    simp only [List.length_append] at hf
    obtain ⟨i, rfl⟩ : ∃ i, j = i + 1 := ⟨j - 1, by omega⟩
    cases toks with
    | nil =>
      have := ih (i + 1) (by simp [spaced])
      simp only [spaced, List.intercalate_nil] at this
      simp only [tails, List.flatMap_nil, List.flatMap_cons, List.append_assoc] at this ⊢
      exact this
    | cons t2 ts =>
      have e : tails (t2 :: ts) = 32 :: spaced (t2 :: ts) := by rw [spaced_tails]; rfl
      rw [e] at hf ⊢
      simp only [List.length_cons] at hf
      rw [sSvcparams_cons, if_pos rfl, ih i (by omega)]
      simp [List.append_assoc]
  | @last k v t h1 h2 => intro hp; exact absurd h1 (hp (k, v) (by simp)).2.2.2.1
  | @glue k v _ _ _ _ h1 h2 _ _ => intro hp; exact absurd h1 (hp (k, v) (by simp)).2.2.2.1

end Wdns
