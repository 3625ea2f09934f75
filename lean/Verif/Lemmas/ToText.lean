import Verif.Lemmas.TextBase
import Verif.Lemmas.ParseRdata
import Verif.Lemmas.ParseFields
import Verif.Lemmas.Descr
import Verif.Props.NameOps

/-! Helper lemmas: rendering conforming rdata. -/

namespace Wdns
open Outcome Spec

/-! ### decompositions -/

theorem encString_of {l : UInt8} {s : List UInt8} (h : s.length = l.toNat) : l :: s = encString s := by
  unfold encString
  rw [h, u8_ofNat_toNat]

theorem strings_enc {f : List UInt8} (h : Strings f) : ∃ ss : List (List UInt8), (∀ s ∈ ss, s.length < 256) ∧ f = ss.flatMap encString := by
  induction h with
  | nil => exact ⟨[], by simp, rfl⟩
  | @cons l s rest hl _ ih =>
    obtain ⟨ss, h1, rfl⟩ := ih
    refine ⟨s :: ss, ?_, ?_⟩
    · intro x hx
      rcases List.mem_cons.mp hx with rfl | hx
      · rw [hl]; exact l.toNat_lt
      · exact h1 x hx
    · rw [List.flatMap_cons, ← encString_of hl]; rfl

theorem windows_enc {f : List UInt8} (h : Windows f) : ∃ ws : List (UInt8 × List UInt8),
    (∀ w ∈ ws, 1 ≤ w.2.length ∧ w.2.length ≤ 32) ∧ f = ws.flatMap encWindow := by
  induction h with
  | nil => exact ⟨[], by simp, rfl⟩
  | @cons w l s rest h1 h2 hl _ ih =>
    obtain ⟨ws, h3, rfl⟩ := ih
    refine ⟨(w, s) :: ws, ?_, ?_⟩
    · intro x hx
      rcases List.mem_cons.mp hx with rfl | hx
      · exact ⟨by simp only; omega, by simp only; omega⟩
      · exact h3 x hx
    · simp only [List.flatMap_cons, encWindow, hl, u8_ofNat_toNat, List.cons_append]

theorem net16_be16 (a b : UInt8) : net16 (be16 a b) = [a, b] := by
  have ha := a.toNat_lt
  have hb := b.toNat_lt
  unfold net16 be16
  have h1 : (a.toNat * 256 + b.toNat) / 256 = a.toNat := by omega
  have h2 : (a.toNat * 256 + b.toNat) % 256 = b.toNat := by omega
  rw [h1, h2, u8_ofNat_toNat, u8_ofNat_toNat]

theorem be16_net16 {n : Nat} (h : n < 65536) : be16 (UInt8.ofNat (n / 256)) (UInt8.ofNat (n % 256)) = n := by
  unfold be16
  rw [toNat_ofNat_lt (by omega), toNat_ofNat_lt (by omega)]
  omega

theorem params_enc {f : List UInt8} (h : Params f) : ∃ ps : List (Nat × List UInt8),
    (∀ p ∈ ps, p.1 < 65536 ∧ p.2.length < 65536 ∧ SvcValueOK p.1 p.2) ∧ f = ps.flatMap encParam := by
  induction h with
  | nil => exact ⟨[], by simp, rfl⟩
  | @cons k0 k1 l0 l1 v rest hl hv _ ih =>
    obtain ⟨ps, h3, rfl⟩ := ih
    refine ⟨(be16 k0 k1, v) :: ps, ?_, ?_⟩
    · intro x hx
      rcases List.mem_cons.mp hx with rfl | hx
      · exact ⟨be16_lt _ _, by simp only [hl]; exact be16_lt _ _, hv⟩
      · exact h3 x hx
    · simp only [List.flatMap_cons, encParam, hl, net16_be16, List.cons_append, List.nil_append]

/-! ### tokens and the text that is written -/

/-- Every token followed by a space. -/
def emit (toks : List (List UInt8)) : List UInt8 := toks.flatMap (· ++ [32])

/-- The text written for tokens: with a space after the last token, or without it. -/
def TextOf (toks : List (List UInt8)) (text : List UInt8) : Prop :=
  text = emit toks ∨ (text = spaced toks ∧ text ≠ [] ∧ text.getLast? ≠ some 32)

theorem spaced_cons {a : List UInt8} {l : List (List UInt8)} (h : l ≠ []) : spaced (a :: l) = a ++ (32 :: spaced l) := by
  cases l with
  | nil => exact absurd rfl h
  | cons b l => exact intercalate_cons_cons

theorem spaced_append {tk toks : List (List UInt8)} (h : toks ≠ []) : spaced (tk ++ toks) = emit tk ++ spaced toks := by
  induction tk with
  | nil => rfl
  | cons a tk ih =>
    have : tk ++ toks ≠ [] := by simp [h]
    rw [List.cons_append, spaced_cons this, ih]
    simp [emit]

theorem spaced_one (a : List UInt8) : spaced [a] = a := by simp [spaced, List.intercalate]

theorem emit_eq {toks : List (List UInt8)} (h : toks ≠ []) : emit toks = spaced toks ++ [32] := by
  induction toks with
  | nil => exact absurd rfl h
  | cons a l ih =>
    by_cases hl : l = []
    · subst hl; simp [emit, spaced_one]
    · rw [spaced_cons hl]
      have := ih hl
      unfold emit at *
      rw [List.flatMap_cons, this]; simp

theorem TextOf.cons {tk toks text} (h : TextOf toks text) : TextOf (tk ++ toks) (emit tk ++ text) := by
  rcases h with rfl | ⟨rfl, h1, h2⟩
  · left; simp [emit]
  · right
    have hne : toks ≠ [] := by rintro rfl; exact h1 (by simp [spaced, List.intercalate])
    refine ⟨(spaced_append hne).symm, by simp [h1], ?_⟩
    rw [List.getLast?_append]
    cases hl : (spaced toks).getLast? with
    | none => simp [List.getLast?_eq_none_iff] at hl; exact absurd hl h1
    | some x => rw [hl] at h2; simpa using h2

theorem textOf_strip {toks text u} (h : TextOf toks text) (hu : u.getLast? ≠ some 32 ∨ text ≠ []) :
    stripLast 32 (u ++ text) = u ++ spaced toks := by
  unfold stripLast
  rcases h with rfl | ⟨rfl, h1, h2⟩
  · by_cases hne : toks = []
    · subst hne
      have : emit ([] : List (List UInt8)) = [] := rfl
      rw [this] at hu ⊢
      simp only [ne_eq, not_true_eq_false, or_false] at hu
      simp [hu, spaced, List.intercalate]
    · rw [emit_eq hne, ← List.append_assoc, List.getLast?_concat]
      simp
  · rw [if_neg]
    rw [List.getLast?_append]
    cases hl : (spaced toks).getLast? with
    | none => simp [List.getLast?_eq_none_iff] at hl; exact absurd hl h1
    | some x => rw [hl] at h2; simpa using h2

theorem printable_emit {toks : List (List UInt8)} (h : ∀ t ∈ toks, Printable t) : Printable (emit toks) :=
  Printable.flatMap fun t ht => (h t ht).append (by decide)

theorem printable_spaced {toks : List (List UInt8)} (h : ∀ t ∈ toks, Printable t) : Printable (spaced toks) :=
  Printable.intercalate (by decide) h

theorem TextOf.printable {toks text} (h : TextOf toks text) (ht : ∀ t ∈ toks, Printable t) : Printable text := by
  rcases h with rfl | ⟨rfl, -, -⟩
  · exact printable_emit ht
  · exact printable_spaced ht

/-! ### SvcParam values -/

theorem commas_cons {a : List UInt8} {l : List (List UInt8)} (h : l ≠ []) : commas (a :: l) = a ++ (44 :: commas l) := by
  cases l with
  | nil => exact absurd rfl h
  | cons b l => exact intercalate_cons_cons
theorem commas_one (a : List UInt8) : commas [a] = a := intercalate_one

/-- The name written for a key in a mandatory list. -/
def mandName (k : Nat) : List UInt8 := if k = 65535 then ascii "invalid key" else keyText k

theorem printable_mandName (k : Nat) : Printable (mandName k) := by
  unfold mandName
  split
  · decide
  · exact printable_keyText k

theorem svcMandatory_eq (v : List UInt8) : ∀ u, v.length % 2 = 0 → v ≠ [] → Clean u →
    svcMandatory v u = (u ++ (commas ((words16 v).map mandName) ++ [32]), .success) := by
  fun_induction words16 v with
  | case1 a b rest ih =>
    intro u hl _ hu
    simp only [List.length_cons] at hl
    unfold svcMandatory
    simp only
    rw [uAddCstr_clean hu, keyText_eq]
    change svcMandatory rest (u ++ mandName (be16 a b) ++ _) = _
    by_cases hr : rest = []
    · subst hr
      simp [svcMandatory, words16, commas_one]
    · rw [if_neg hr]
      have hne : (words16 rest).map mandName ≠ [] := by
        cases rest with
        | nil => exact absurd rfl hr
        | cons x r =>
          cases r with
          | nil => simp at hl
          | cons y r => simp [words16]
      rw [ih _ (by omega) hr ((hu.append (printable_mandName _)).append (by decide))]
      rw [List.map_cons, commas_cons hne]
      simp
  | case2 v hv =>
    intro u hl hne
    cases v with
    | nil => exact absurd rfl hne
    | cons x r =>
      cases r with
      | nil => simp at hl
      | cons y r => exact absurd rfl (hv x y r)

/-- The items of a list of blocks. -/
def blocks (n : Nat) (f : List UInt8 → List UInt8) (v : List UInt8) : List (List UInt8) :=
  (List.range (v.length / n)).map fun i => f (block n v i)

theorem blocks_cons {n : Nat} (hn : 0 < n) (f : List UInt8 → List UInt8) {v : List UInt8} (h : n ≤ v.length) :
    blocks n f v = f (v.take n) :: blocks n f (v.drop n) := by
  unfold blocks
  have e : v.length / n = (v.drop n).length / n + 1 := by
    rw [List.length_drop]
    obtain ⟨m, hm⟩ : ∃ m, v.length = m + n := ⟨v.length - n, by omega⟩
    rw [hm, Nat.add_sub_cancel, Nat.add_div_right _ hn]
  rw [e, List.range_succ_eq_map, List.map_cons, List.map_map]
  congr 1
  apply List.map_congr_left
  intro i _
  simp only [Function.comp, block, List.drop_drop]
  have : n * i.succ = n + n * i := by rw [Nat.mul_succ]; omega
  rw [this]

theorem blocks_ne_nil {n : Nat} (hn : 0 < n) (f : List UInt8 → List UInt8) {v : List UInt8} (h : n ≤ v.length) : blocks n f v ≠ [] := by
  rw [blocks_cons hn f h]; simp

theorem blocks_nil (n : Nat) (f : List UInt8 → List UInt8) : blocks n f [] = [] := by simp [blocks]

theorem four_of {v : List UInt8} (h : 4 ≤ v.length) : ∃ a b c d rest, v = a :: b :: c :: d :: rest := by
  match v, h with
  | a :: b :: c :: d :: rest, _ => exact ⟨a, b, c, d, rest, rfl⟩

theorem inet4Ntop_quad {v : List UInt8} (h : 4 ≤ v.length) {n : Nat} (hn : 16 ≤ n) : inet4Ntop v n = ok (some (quadText (v.take 4))) := by
  obtain ⟨a, b, c, d, rest, rfl⟩ := four_of h
  rw [inet4Ntop_eq _ n hn a b c d rest rfl]
  rfl

theorem inet6Ntop_ip6 {v : List UInt8} (h : 16 ≤ v.length) {n : Nat} (hn : 46 ≤ n) : inet6Ntop v n = ok (some (ip6Text (v.take 16))) := by
  obtain ⟨t, h1, _, _, rfl⟩ := inet6_roundtrip v n hn h
  exact h1

theorem printable_quadText (v : List UInt8) : Printable (quadText v) := printable_dottedQuad _ _ _ _

theorem svcIp4_eq (k : Nat) : ∀ (v u : List UInt8) (fuel : Nat), v.length = 4 * (k + 1) → v.length < fuel → Clean u →
    svcIp4 fuel v u = ok (u ++ (commas (blocks 4 quadText v) ++ [32]), .success) := by
  induction k with
  | zero =>
    intro v u fuel hl hf hu
    obtain ⟨f, rfl⟩ : ∃ f, fuel = f + 2 := ⟨fuel - 2, by omega⟩
    have h1 : v ≠ [] := by rintro rfl; simp at hl
    have h2 : v.drop 4 = [] := by simp; omega
    rw [svcIp4, if_neg h1, if_neg (by omega), inet4Ntop_quad (by omega) (by omega)]
    simp only [ok_bind, h2, if_true]
    rw [svcIp4, if_pos rfl, uAddCstr_clean hu, blocks_cons (by omega) _ (by omega), h2, blocks_nil, commas_one]
    simp
  | succ k ih =>
    intro v u fuel hl hf hu
    obtain ⟨f, rfl⟩ : ∃ f, fuel = f + 1 := ⟨fuel - 1, by omega⟩
    have h1 : v ≠ [] := by rintro rfl; simp at hl
    have h3 : (v.drop 4).length = 4 * (k + 1) := by simp; omega
    have h2 : v.drop 4 ≠ [] := by intro h; simp [h] at h3
    rw [svcIp4, if_neg h1, if_neg (by omega), inet4Ntop_quad (by omega) (by omega)]
    simp only [ok_bind, h2, if_false]
    rw [uAddCstr_clean hu, ih _ _ _ h3 (by omega) ((hu.append (printable_quadText _)).append (by decide)),
      blocks_cons (n := 4) (v := v) (by omega) _ (by omega), commas_cons (blocks_ne_nil (by omega) _ (by omega))]
    simp

theorem svcIp6_eq (k : Nat) : ∀ (v u : List UInt8) (fuel : Nat), v.length = 16 * (k + 1) → v.length < fuel → Clean u →
    svcIp6 fuel v u = ok (u ++ (commas (blocks 16 ip6Text v) ++ [32]), .success) := by
  induction k with
  | zero =>
    intro v u fuel hl hf hu
    obtain ⟨f, rfl⟩ : ∃ f, fuel = f + 2 := ⟨fuel - 2, by omega⟩
    have h1 : v ≠ [] := by rintro rfl; simp at hl
    have h2 : v.drop 16 = [] := by simp; omega
    rw [svcIp6, if_neg h1, if_neg (by omega), inet6Ntop_ip6 (by omega) (by omega)]
    simp only [ok_bind, h2, if_true]
    rw [svcIp6, if_pos rfl, uAddCstr_clean hu, blocks_cons (by omega) _ (by omega), h2, blocks_nil, commas_one]
    simp
  | succ k ih =>
    intro v u fuel hl hf hu
    obtain ⟨f, rfl⟩ : ∃ f, fuel = f + 1 := ⟨fuel - 1, by omega⟩
    have h1 : v ≠ [] := by rintro rfl; simp at hl
    have h3 : (v.drop 16).length = 16 * (k + 1) := by simp; omega
    have h2 : v.drop 16 ≠ [] := by intro h; simp [h] at h3
    rw [svcIp6, if_neg h1, if_neg (by omega), inet6Ntop_ip6 (by omega) (by omega)]
    simp only [ok_bind, h2, if_false]
    rw [uAddCstr_clean hu, ih _ _ _ h3 (by omega) ((hu.append (printable_ip6Text _)).append (by decide)),
      blocks_cons (n := 16) (v := v) (by omega) _ (by omega), commas_cons (blocks_ne_nil (by omega) _ (by omega))]
    simp

theorem alpnByte_eq (c : UInt8) : alpnByte c = ok ((listItem [c]).flatMap charText) := by
  have h : ∀ n < 256, alpnByte (UInt8.ofNat n) = ok ((listItem [UInt8.ofNat n]).flatMap charText) := by decide +kernel
  have := h c.toNat c.toNat_lt
  rwa [u8_ofNat_toNat] at this

theorem listItem_cons (c : UInt8) (s : List UInt8) : listItem (c :: s) = listItem [c] ++ listItem s := by
  simp [listItem]

theorem alpnId_eq (s : List UInt8) : ∀ u, alpnId s u = ok (u ++ (listItem s).flatMap charText) := by
  induction s with
  | nil => intro u; simp [alpnId, listItem]
  | cons c s ih =>
    intro u
    rw [alpnId, alpnByte_eq, ok_bind, ih, listItem_cons c s]
    simp

theorem svcAlpn_eq (ids : List (List UInt8)) : ∀ (u : List UInt8) (fuel : Nat), ids ≠ [] → (∀ s ∈ ids, s.length < 256) →
    (ids.flatMap encString).length < fuel →
    svcAlpn fuel (ids.flatMap encString) u = ok (u ++ ((commas (ids.map listItem)).flatMap charText ++ [34]), .success) := by
  induction ids with
  | nil => intro _ _ h; exact absurd rfl h
  | cons s ids ih =>
    intro u fuel _ hs hf
    have hs0 := hs s (by simp)
    simp only [List.flatMap_cons, encString, List.cons_append, List.length_cons, List.length_append] at hf
    obtain ⟨f, rfl⟩ : ∃ f, fuel = f + 2 := ⟨fuel - 2, by omega⟩
    rw [List.flatMap_cons]
    simp only [encString, List.cons_append]
    rw [svcAlpn]
    rw [toNat_ofNat_lt hs0, if_neg (by simp)]
    simp only [List.take_left, List.drop_left, alpnId_eq, ok_bind]
    by_cases hr : ids = []
    · subst hr
      simp [svcAlpn, commas_one]
    · have hne : ids.flatMap encString ≠ [] := by
        cases ids with
        | nil => exact absurd rfl hr
        | cons a l => simp [encString]
      rw [if_neg hne, ih _ _ hr (fun x hx => hs x (by simp [hx])) (by omega)]
      rw [List.map_cons, commas_cons (by simpa using hr)]
      have : charText 44 = [44] := by decide
      simp [this]

theorem svcText_default {k : Nat} (h : 7 ≤ k) (v t : List UInt8) : SvcText k v t ↔ t = quoted v := by
  obtain ⟨j, rfl⟩ : ∃ j, k = j + 7 := ⟨k - 7, by omega⟩
  rfl

theorem printable_commas {l : List (List UInt8)} (h : ∀ x ∈ l, Printable x) : Printable (commas l) :=
  Printable.intercalate (by decide) h

theorem printable_blocks {n : Nat} {f : List UInt8 → List UInt8} (hf : ∀ x, Printable (f x)) (v : List UInt8) :
    Printable (commas (blocks n f v)) := by
  refine printable_commas fun x hx => ?_
  obtain ⟨i, _, rfl⟩ := List.mem_map.mp hx
  exact hf _

theorem svcparamToStr_eq {k : Nat} {v u : List UInt8} (hk : k < 65535) (hv : SvcValueOK k v) (hu : Clean u) :
    ∃ t, SvcText k v t ∧ Printable t ∧ (EmptyList k v → t = []) ∧
      svcparamToStr k v u = ok (u ++ (if EmptyList k v then [] else t ++ [32]), .success) := by
  by_cases h7 : 7 ≤ k
  · refine ⟨quoted v, (svcText_default h7 v _).mpr rfl, printable_quoted v, fun h => by unfold EmptyList at h; omega, ?_⟩
    unfold svcparamToStr
    rw [if_neg (by omega), if_neg (by omega), if_neg (by omega), if_neg (by omega), if_neg (by omega), if_neg (by omega),
      if_neg (by omega), if_neg (by omega), strQuoted_eq, ok_bind, if_neg (by unfold EmptyList; omega)]
  · obtain rfl | rfl | rfl | rfl | rfl | rfl | rfl : k = 0 ∨ k = 1 ∨ k = 2 ∨ k = 3 ∨ k = 4 ∨ k = 5 ∨ k = 6 := by omega
    · refine ⟨_, rfl, printable_commas ?_, ?_, ?_⟩
      · intro x hx
        obtain ⟨w, _, rfl⟩ := List.mem_map.mp hx
        exact printable_mandName w
      · rintro ⟨rfl, -⟩; simp [words16, commas, List.intercalate]
      · change ok (svcMandatory v u) = _
        by_cases hv0 : v = []
        · subst hv0; simp [svcMandatory, EmptyList]
        · rw [svcMandatory_eq v u hv hv0 hu, if_neg (by simp [EmptyList, hv0])]; rfl
    · obtain ⟨hv0, hs⟩ : v ≠ [] ∧ Strings v := hv
      obtain ⟨ids, h1, rfl⟩ := strings_enc hs
      have hne : ids ≠ [] := by rintro rfl; exact hv0 rfl
      refine ⟨quoted (commas (ids.map listItem)), ⟨ids, h1, rfl, rfl⟩, printable_quoted _, fun h => by simp [EmptyList] at h, ?_⟩
      have e : svcparamToStr 1 (ids.flatMap encString) u = (do
        let (u, r) ← svcAlpn ((ids.flatMap encString).length + 1) (ids.flatMap encString) (u ++ [34])
        if r = .success then ok (u ++ [32], r) else ok (u, r)) := rfl
      rw [e, svcAlpn_eq ids _ _ hne h1 (by omega)]
      simp [quoted, EmptyList]
    · have hv' : v = [] := hv
      subst hv'
      exact ⟨[], rfl, printable_nil, fun h => by simp [EmptyList] at h, by simp [svcparamToStr, EmptyList]⟩
    · have hl : v.length = 2 := hv
      obtain ⟨a, b, rfl⟩ : ∃ a b, v = [a, b] := by
        match v, hl with
        | [a, b], _ => exact ⟨a, b, rfl⟩
      refine ⟨_, ⟨a, b, rfl, rfl⟩, printable_decText _, fun h => by simp [EmptyList] at h, ?_⟩
      have hb := be16_lt a b
      have e : svcparamToStr 3 [a, b] u = (do
        let t ← decStr (be16 a b) 6
        ok (u ++ t ++ [32], .success)) := rfl
      rw [e, decStr_eq (by omega) (by omega)]
      simp [EmptyList]
    · have hl : v.length % 4 = 0 := hv
      refine ⟨commas (blocks 4 quadText v), rfl, printable_blocks printable_quadText v, ?_, ?_⟩
      · rintro ⟨rfl, -⟩; simp [blocks, commas, List.intercalate]
      · change svcIp4 (v.length + 1) v u = _
        by_cases hv0 : v = []
        · subst hv0; simp [svcIp4, EmptyList]
        · have : v.length ≠ 0 := by simpa using hv0
          rw [svcIp4_eq (v.length / 4 - 1) v u _ (by omega) (by omega) hu, if_neg (by simp [EmptyList, hv0])]
    · refine ⟨base64 v, rfl, printable_base64 v, fun h => by simp [EmptyList] at h, ?_⟩
      have e : svcparamToStr 5 v u = (do
        let t ← bytesToBase64 v
        ok (u ++ t ++ [32], .success)) := rfl
      rw [e, bytesToBase64_eq]
      simp [EmptyList]
    · have hl : v.length % 16 = 0 := hv
      refine ⟨commas (blocks 16 ip6Text v), rfl, printable_blocks printable_ip6Text v, ?_, ?_⟩
      · rintro ⟨rfl, -⟩; simp [blocks, commas, List.intercalate]
      · change svcIp6 (v.length + 1) v u = _
        by_cases hv0 : v = []
        · subst hv0; simp [svcIp6, EmptyList]
        · have : v.length ≠ 0 := by simpa using hv0
          rw [svcIp6_eq (v.length / 16 - 1) v u _ (by omega) (by omega) hu, if_neg (by simp [EmptyList, hv0])]

theorem svcValueOK_key {k : Nat} {v : List UInt8} (h : SvcValueOK k v) : k ≠ 65535 := by
  rintro rfl; exact h

theorem paramToks_ne_nil {ps toks} (h : ParamToks ps toks) (hp : ps ≠ []) : toks ≠ [] := by
  cases h <;> simp_all

theorem printable_paramText {k : Nat} {t : List UInt8} (h : Printable t) : Printable (paramText k t) := by
  unfold paramText
  refine (printable_keyText k).append ?_
  split
  · exact printable_nil
  · exact printable_cons (by decide) h

theorem keyText_last_ne {k : Nat} {t : List UInt8} (h2 : k ≠ 2) (ht : t = []) : (paramText k t).getLast? = some 61 := by
  subst ht
  simp [paramText, h2]

/-- One SvcParam. -/
theorem tSvcparams_step {mem : List UInt8} {fuel src : Nat} {k : Nat} {v rest u : List UInt8} (hk : k < 65535) (hl : v.length < 65536)
    (hw : Win mem src (encParam (k, v) ++ rest)) (hu : Clean u) :
    tSvcparams mem (fuel + 1) ⟨src, ((encParam (k, v) ++ rest).length : Nat), u⟩ =
      (svcparamToStr k v (u ++ (keyText k ++ if k ≠ 2 then [61] else []))) >>= fun p =>
        if p.2 ≠ .success then ok (.bad (some p.2) p.1)
        else tSvcparams mem fuel ⟨src + (encParam (k, v)).length, (rest.length : Nat), p.1⟩ := by
  have hlen : (encParam (k, v) ++ rest).length = 4 + v.length + rest.length := by simp [encParam, net16]; omega
  have hlen2 : (encParam (k, v)).length = 4 + v.length := by simp [encParam, net16]; omega
  have hwin : Win mem src (UInt8.ofNat (k / 256) :: UInt8.ofNat (k % 256) :: UInt8.ofNat (v.length / 256) ::
    UInt8.ofNat (v.length % 256) :: (v ++ rest)) := by simpa [encParam, net16] using hw
  have e0 := hwin.rd
  have e1 := hwin.tail.rd
  have e2 := hwin.tail.tail.rd
  have e3 := hwin.tail.tail.tail.rd
  have e4 := (hwin.tail.tail.tail.tail.left).rdN rfl
  have hk16 := be16_net16 (n := k) (by omega)
  have hl16 := be16_net16 (n := v.length) hl
  rw [hlen, hlen2]
  rw [tSvcparams]
  simp only [need]
  rw [if_pos (by omega), if_neg (by omega), e0, ok_bind, e1, ok_bind]
  simp only [hk16]
  rw [if_neg (by omega), if_neg (by omega), e2, ok_bind]
  rw [show src + 2 + 1 = src + 1 + 1 + 1 by omega, e3, ok_bind]
  simp only [hl16]
  rw [if_neg (by omega), show src + 2 + 2 = src + 1 + 1 + 1 + 1 by omega, e4, ok_bind, uAddCstr_clean hu, keyText_eq,
    if_neg (by omega)]
  have a1 : ((4 + v.length + rest.length : Nat) : Int) - 2 - 2 - (v.length : Int) = (rest.length : Nat) := by omega
  have a2 : src + 1 + 1 + 1 + 1 + v.length = src + (4 + v.length) := by omega
  simp only [a1, a2]

theorem tSvcparams_eq {mem : List UInt8} (ps : List (Nat × List UInt8)) : ∀ (src fuel : Nat) (u : List UInt8),
    (∀ p ∈ ps, p.1 < 65536 ∧ p.2.length < 65536 ∧ SvcValueOK p.1 p.2) → Win mem src (ps.flatMap encParam) →
    ps.length < fuel → Clean u →
    ∃ toks text, ParamToks ps toks ∧ TextOf toks text ∧ (∀ t ∈ toks, Printable t) ∧
      tSvcparams mem fuel ⟨src, ((ps.flatMap encParam).length : Nat), u⟩ =
        ok (.go ⟨src + (ps.flatMap encParam).length, 0, u ++ text⟩) := by
  induction ps with
  | nil =>
    intro src fuel u _ _ hf _
    obtain ⟨f, rfl⟩ : ∃ f, fuel = f + 1 := ⟨fuel - 1, by simp at hf; omega⟩
    exact ⟨[], [], .nil, Or.inl rfl, by simp, by simp [tSvcparams]⟩
  | cons p ps ih =>
    intro src fuel u hp hw hf hu
    obtain ⟨k, v⟩ := p
    obtain ⟨hk, hl, hv⟩ := hp (k, v) (by simp)
    simp only at hk hl hv
    have hk' : k < 65535 := by have := svcValueOK_key hv; omega
    obtain ⟨f, rfl⟩ : ∃ f, fuel = f + 1 := ⟨fuel - 1, by simp at hf; omega⟩
    rw [List.flatMap_cons] at hw ⊢
    rw [tSvcparams_step hk' hl hw hu]
    have hpre : Printable (keyText k ++ if k ≠ 2 then [61] else []) := by
      refine (printable_keyText k).append ?_
      split
      · decide
      · exact printable_nil
    have hu1 := hu.append hpre
    obtain ⟨t, ht1, ht2, ht3, ht4⟩ := svcparamToStr_eq hk' hv hu1
    rw [ht4, ok_bind, if_neg (by simp)]
    have hu2 : Clean (u ++ (keyText k ++ if k ≠ 2 then [61] else []) ++ if EmptyList k v then [] else t ++ [32]) := by
      refine hu1.append ?_
      split
      · exact printable_nil
      · exact ht2.append (by decide)
    obtain ⟨toks, text, h1, h2, h3, h4⟩ := ih (src + (encParam (k, v)).length) f _ (fun q hq => hp q (by simp [hq])) hw.right
      (by simp only [List.length_cons] at hf; omega) hu2
    have key : ∀ x : List UInt8, ok (TRes.go ⟨src + (encParam (k, v)).length + (ps.flatMap encParam).length, 0, x⟩) =
        ok (TRes.go ⟨src + (encParam (k, v) ++ ps.flatMap encParam).length, 0, x⟩) := by
      intro x; rw [List.length_append, Nat.add_assoc]
    by_cases hE : EmptyList k v
    · have ht0 := ht3 hE
      subst ht0
      have hk2 : k ≠ 2 := by unfold EmptyList at hE; omega
      have hpt : paramText k [] = keyText k ++ if k ≠ 2 then [61] else [] := by simp [paramText, hk2]
      by_cases hps : ps = []
      · subst hps
        cases h1
        have htext : text = [] := by
          rcases h2 with h2 | h2
          · simpa [emit] using h2
          · exact absurd h2.1 (by simpa [spaced, List.intercalate] using h2.2.1)
        subst htext
        refine ⟨_, paramText k [], .last hE ht1, Or.inr ⟨(spaced_one _).symm, ?_, ?_⟩, ?_, ?_⟩
        · simp [paramText, hk2]
        · rw [keyText_last_ne hk2 rfl]; decide
        · intro x hx
          simp only [List.mem_cons, List.not_mem_nil, or_false] at hx
          subst hx
          exact printable_paramText ht2
        · refine h4.trans ?_
          rw [key, hpt]
          simp [hE]
      · cases toks with
        | nil => exact absurd rfl (paramToks_ne_nil h1 hps)
        | cons tok toks =>
          refine ⟨_, paramText k [] ++ text, .glue hE ht1 h1, ?_, ?_, ?_⟩
          · rcases h2 with rfl | ⟨rfl, g1, g2⟩
            · left; simp [emit]
            · right
              refine ⟨?_, by simp [g1], ?_⟩
              · cases toks with
                | nil => rw [spaced_one, spaced_one]
                | cons a l => rw [spaced_cons (l := a :: l) (by simp), spaced_cons (l := a :: l) (by simp)]; simp
              · rw [List.getLast?_append]
                cases hl : (spaced (tok :: toks)).getLast? with
                | none => simp [List.getLast?_eq_none_iff] at hl; exact absurd hl g1
                | some x => rw [hl] at g2; simpa using g2
          · intro x hx
            rcases List.mem_cons.mp hx with rfl | hx
            · exact (printable_paramText ht2).append (h3 _ (by simp))
            · exact h3 _ (by simp [hx])
          · refine h4.trans ?_
            rw [key, hpt]
            simp [hE]
    · refine ⟨_, emit [paramText k t] ++ text, .cons hE ht1 h1, h2.cons, ?_, ?_⟩
      · intro x hx
        rcases List.mem_cons.mp hx with rfl | hx
        · exact printable_paramText ht2
        · exact h3 _ hx
      · refine h4.trans ?_
        rw [key]
        congr 3
        by_cases hk2 : k = 2
        · subst hk2
          have : t = [] := ht1
          subst this
          simp [emit, paramText, hE]
        · simp [emit, paramText, hE, hk2]

end Wdns
