import Verif.Lemmas.ScanTypes
import Verif.Props.NameText

/-! Helper lemmas: every field reads back what `wdns_rdata_to_str` writes for it. -/

namespace Wdns
open Outcome Spec

/-! ## quoted strings -/

theorem fss_ddd_fin : ∀ n < 256, isDigit (UInt8.ofNat (48 + n / 100)) = true ∧ isDigit (UInt8.ofNat (48 + n / 10 % 10)) = true ∧
    isDigit (UInt8.ofNat (48 + n % 10)) = true ∧ UInt8.ofNat (48 + n / 100) ≠ 34 ∧ UInt8.ofNat (48 + n / 100) ≠ 92 ∧
    100 * ((UInt8.ofNat (48 + n / 100)).toNat - 48) + 10 * ((UInt8.ofNat (48 + n / 10 % 10)).toNat - 48) +
      ((UInt8.ofNat (48 + n % 10)).toNat - 48) = n := by decide +kernel

theorem fss_esc (q : Bool) (d : UInt8) (cs u : List UInt8) (n : Nat) (h : d = 34 ∨ d = 92) :
    fssLoop q (92 :: d :: cs) u n = fssLoop q cs (u ++ [d]) (n + 2) := by
  have e : isSpace 92 = false := rfl
  rw [fssLoop.eq_def]
  simp [e, h]

theorem fss_dec (q : Bool) (c : UInt8) (cs u : List UInt8) (n : Nat) :
    fssLoop q (92 :: UInt8.ofNat (48 + c.toNat / 100) :: UInt8.ofNat (48 + c.toNat / 10 % 10) :: UInt8.ofNat (48 + c.toNat % 10) :: cs) u n =
      fssLoop q cs (u ++ [c]) (n + 4) := by
  obtain ⟨h1, h2, h3, h4, h5, h6⟩ := fss_ddd_fin c.toNat (u8_lt c)
  have hc := u8_lt c
  have e : isSpace 92 = false := rfl
  rw [fssLoop.eq_def]
  simp only [e, Bool.false_eq_true, and_false, if_false, h4, h5, or_self, h1, h2, h3, and_self, if_true, h6]
  rw [if_neg (by simp), if_neg (by omega), u8_ofNat_toNat]

theorem fss_char (q : Bool) (c : UInt8) (cs u : List UInt8) (n : Nat) (h : 32 ≤ c.toNat ∧ c.toNat ≤ 126) (h1 : q = true → c ≠ 34)
    (h2 : q = false → c ≠ 32) (h3 : c ≠ 92) : fssLoop q (c :: cs) u n = fssLoop q cs (u ++ [c]) (n + 1) := by
  rw [fssLoop.eq_def]
  simp only
  rw [if_neg (by rintro ⟨a, b⟩; exact h1 a b), if_neg ?_, if_neg h3, if_pos h]
  rintro ⟨a, b⟩
  have h4 := h2 (by simpa using a)
  rw [isSpace_graphic] at b
  · cases b
  · have : c.toNat ≠ 32 := fun e => h4 (UInt8.toNat.inj e)
    omega

theorem fss_charText (c : UInt8) (cs u : List UInt8) (n : Nat) :
    fssLoop true (charText c ++ cs) u n = fssLoop true cs (u ++ [c]) (n + (charText c).length) := by
  unfold charText
  by_cases h1 : c.toNat = 34 ∨ c.toNat = 92
  · rw [if_pos h1]
    have : c = 34 ∨ c = 92 := by
      rcases h1 with h | h
      · exact Or.inl (UInt8.toNat.inj h)
      · exact Or.inr (UInt8.toNat.inj h)
    exact fss_esc true c cs u n this
  · rw [if_neg h1]
    have h34 : c ≠ 34 := fun e => h1 (Or.inl (by rw [e]; rfl))
    have h92 : c ≠ 92 := fun e => h1 (Or.inr (by rw [e]; rfl))
    by_cases h2 : 32 ≤ c.toNat ∧ c.toNat ≤ 126
    · rw [if_pos h2]
      exact fss_char true c cs u n h2 (fun _ => h34) (by simp) h92
    · rw [if_neg h2]
      exact fss_dec true c cs u n

theorem fss_chars (s cs : List UInt8) : ∀ (u : List UInt8) (n : Nat),
    fssLoop true (s.flatMap charText ++ cs) u n = fssLoop true cs (u ++ s) (n + (s.flatMap charText).length) := by
  induction s with
  | nil => intro u n; simp
  | cons c s ih =>
    intro u n
    rw [List.flatMap_cons, List.append_assoc, fss_charText, ih, List.append_assoc, List.length_append]
    simp only [List.cons_append, List.nil_append, Nat.add_assoc]

theorem fromStr_quoted (s rest u : List UInt8) : rdataFromStrString (quoted s ++ rest) u = ((quoted s).length, u ++ s) := by
  unfold rdataFromStrString quoted
  simp only [List.cons_append, List.nil_append, List.append_assoc, List.head?_cons, if_true, List.drop_succ_cons, List.drop_zero]
  rw [fss_chars, fssLoop.eq_def]
  simp
  omega

/-- Characters that stand for themselves in an unquoted value. -/
def Bare (t : List UInt8) : Prop := ∀ c ∈ t, 33 ≤ c.toNat ∧ c.toNat ≤ 126 ∧ c.toNat ≠ 34 ∧ c.toNat ≠ 92

theorem fss_bare (t rest : List UInt8) (h : Bare t) (hs : Sep rest) : ∀ (u : List UInt8) (n : Nat),
    fssLoop false (t ++ rest) u n = (true, n + t.length, u ++ t) := by
  induction t with
  | nil =>
    intro u n
    rcases hs with rfl | hs
    · simp [fssLoop]
    · cases rest with
      | nil => simp at hs
      | cons c r =>
        simp at hs; subst hs
        rw [List.nil_append, fssLoop.eq_def]
        have : isSpace 32 = true := rfl
        simp [this]
  | cons c t ih =>
    intro u n
    have hc := h c (by simp)
    rw [List.cons_append, fss_char false c _ u n ⟨by omega, hc.2.1⟩ (by simp) (fun _ e => by rw [e] at hc; simp at hc)
      (fun e => by rw [e] at hc; simp at hc), ih (fun c hc => h c (by simp [hc]))]
    simp only [List.length_cons, List.append_assoc, List.cons_append, List.nil_append, Prod.mk.injEq, and_true, true_and]
    omega

theorem fromStr_bare {t rest : List UInt8} (h : Bare t) (ht : t ≠ []) (hs : Sep rest) (u : List UInt8) :
    rdataFromStrString (t ++ rest) u = (t.length, u ++ t) := by
  unfold rdataFromStrString
  simp only
  have h34 : (t ++ rest).head? ≠ some 34 := by
    cases t with
    | nil => exact absurd rfl ht
    | cons c t =>
      simp only [List.cons_append, List.head?_cons]
      intro e
      cases e
      exact (h 34 (by simp)).2.2.1 rfl
  rw [if_neg h34, fss_bare t rest h hs]
  simp

theorem quoted_length (s : List UInt8) : 2 ≤ (quoted s).length := by unfold quoted; simp

theorem set_after (u s : List UInt8) (x b : UInt8) : (u ++ [x] ++ s).set u.length b = u ++ (b :: s) := by
  rw [List.append_assoc, List.set_append_right _ _ (Nat.le_refl _)]; simp

theorem strToUbuf_quoted (s rest u : List UInt8) (h : s.length < 256) :
    strToUbuf (quoted s ++ rest) u = (.success, rest, u ++ encString s) := by
  unfold strToUbuf
  have h2 := quoted_length s
  simp only [fromStr_quoted]
  rw [if_neg (by omega), if_neg (by simp; omega), List.drop_left, set_after]
  simp only [encString, Prod.mk.injEq, true_and]
  congr 3
  simp only [List.length_append, List.length_singleton]
  omega

/-! ## the fields -/

/-- The rest of the line: every token with a space before it. -/
def tails (toks : List (List UInt8)) : List UInt8 := toks.flatMap (32 :: ·)

theorem sep_tails (toks : List (List UInt8)) : Sep (tails toks) := by
  cases toks with
  | nil => exact Sep.nil
  | cons t ts => exact Sep.cons

theorem spaced_tails (t : List UInt8) (ts : List (List UInt8)) : spaced (t :: ts) = t ++ tails ts := by
  unfold spaced tails
  induction ts generalizing t with
  | nil => simp [List.intercalate]
  | cons a ts ih => rw [intercalate_cons_cons, ih]; simp

theorem nameText_ne_nil (n : Name) : nameText n ≠ [] := by
  cases n with
  | nil => decide
  | cons l n =>
    intro h
    unfold nameText at h
    simp at h

theorem scan_name {t : Rdf} (ht : IsName t) {n : Name} (hn : WF n) {rest : List UInt8} (hs : Sep rest) (u : List UInt8) :
    ∃ p, sField t (nameText n ++ rest) u = ok (.go p (u ++ wire n)) ∧ At p rest := by
  have hg := graphic_nameText n
  have he : strToNameCase (tokOf (nameText n ++ rest)) = ok ⟨(wire n).length, wire n⟩ := by
    rw [tokOf_app hg hs, strToNameCase, strToNameGen_text false n hn, caseName_false]
  refine ⟨_, ?_, endPtr_app hg hs⟩
  cases t <;> first | exact absurd ht id | skip
  · simp only [sField, he]
  · simp only [sField, he]

theorem scan_int {k v : Nat} (hv : v < 256 ^ k) (hk : k ≤ 4) {rest : List UInt8} (hs : Sep rest) (u : List UInt8) :
    sInt k (decText v ++ rest) u = ok (.go (some rest) (u ++ (List.range k).map fun i => UInt8.ofNat (v / 256 ^ (k - 1 - i)))) := by
  have hv' : v < 2 ^ 32 := by
    have : (256 : Nat) ^ k ≤ 256 ^ 4 := Nat.pow_le_pow_right (by omega) hk
    have e : (256 : Nat) ^ 4 = 2 ^ 32 := by decide
    omega
  have hg := graphic_decText v
  unfold sInt
  rw [tokOf_app hg hs, if_pos (decText_digits v), scanfU_dec 64 hs (by omega)]
  simp only
  rw [Nat.mod_eq_of_lt (by omega), if_neg (by omega), afterTok_app hg hs]

theorem ofNat_be16 (a b : UInt8) : [UInt8.ofNat (be16 a b / 256), UInt8.ofNat (be16 a b)] = [a, b] := by
  have ha := u8_lt a
  have hb := u8_lt b
  have e1 : be16 a b / 256 = a.toNat := by unfold be16; omega
  have e2 : UInt8.ofNat (be16 a b) = b := by
    apply UInt8.toNat.inj
    rw [UInt8.toNat_ofNat']
    unfold be16; omega
  rw [e1, e2, u8_ofNat_toNat]

theorem scan_int8 (a : UInt8) {rest : List UInt8} (hs : Sep rest) (u : List UInt8) :
    sField .int8 (decText a.toNat ++ rest) u = ok (.go (some rest) (u ++ [a])) := by
  have := scan_int (k := 1) (v := a.toNat) (by simpa using u8_lt a) (by omega) hs u
  simp only [sField, this]
  simp

theorem scan_int16 (a b : UInt8) {rest : List UInt8} (hs : Sep rest) (u : List UInt8) :
    sField .int16 (decText (be16 a b) ++ rest) u = ok (.go (some rest) (u ++ [a, b])) := by
  have := scan_int (k := 2) (v := be16 a b) (by have := be16_lt a b; simpa using this) (by omega) hs u
  simp only [sField, this]
  have h := ofNat_be16 a b
  simp only [List.range, List.range.loop, List.map_cons, List.map_nil]
  simpa using h

theorem scan_int32 (a b c d : UInt8) {rest : List UInt8} (hs : Sep rest) (u : List UInt8) :
    sField .int32 (decText (be32 a b c d) ++ rest) u = ok (.go (some rest) (u ++ [a, b, c, d])) := by
  have := scan_int (k := 4) (v := be32 a b c d) (by have := be32_lt a b c d; simpa using this) (by omega) hs u
  simp only [sField, this]
  simp only [List.range, List.range.loop, List.map_cons, List.map_nil]
  have ha := u8_lt a
  have hb := u8_lt b
  have hc := u8_lt c
  have hd := u8_lt d
  have e : ∀ (k : Nat) (x : UInt8), be32 a b c d / k % 256 = x.toNat → UInt8.ofNat (be32 a b c d / k) = x := by
    intro k x h
    apply UInt8.toNat.inj
    rw [UInt8.toNat_ofNat']
    exact h
  rw [e (256 ^ (4 - 1 - 0)) a (by unfold be32; omega), e (256 ^ (4 - 1 - 1)) b (by unfold be32; omega),
    e (256 ^ (4 - 1 - 2)) c (by unfold be32; omega), e (256 ^ (4 - 1 - 3)) d (by unfold be32; omega)]

theorem scan_ipv4 {f rest : List UInt8} (hf : f.length = 4) (hs : Sep rest) (u : List UInt8) :
    sField .ipv4 (quadText f ++ rest) u = ok (.go (some rest) (u ++ f)) := by
  match f, hf with
  | [a, b, c, d], _ =>
    have hg : Graphic (quadText [a, b, c, d]) := graphic_dottedQuad _ _ _ _
    have := pton4_dottedQuad a b c d
    simp only [sField]
    rw [tokOf_app hg hs, afterTok_app hg hs]
    unfold quadText
    simp only [List.getD_cons_zero, List.getD_cons_succ, this]

theorem pton6_ip6Text {f : List UInt8} (hf : f.length = 16) : inetPton6 (ip6Text f) = some f := by
  obtain ⟨t, -, -, h1, h2⟩ := inet6_roundtrip f 46 (by omega) (by omega)
  rw [List.take_of_length_le (by omega)] at h1 h2
  rw [← h2]; exact h1

theorem scan_ipv6 {f rest : List UInt8} (hf : f.length = 16) (hs : Sep rest) (u : List UInt8) :
    ∃ p, sField .ipv6 (ip6Text f ++ rest) u = ok (.go p (u ++ f)) ∧ At p rest := by
  have hg := graphic_ip6Text f
  refine ⟨_, ?_, endPtr_app hg hs⟩
  simp only [sField]
  rw [tokOf_app hg hs, pton6_ip6Text hf]

theorem scan_string {s rest : List UInt8} (h : s.length < 256) (u : List UInt8) :
    sField .string (quoted s ++ rest) u = ok (.go (some rest) (u ++ encString s)) := by
  simp only [sField, strToUbuf_quoted s rest u h]
  rfl

theorem scan_rrtype {a b : UInt8} (h : be16 a b ≠ 0) {rest : List UInt8} (hs : Sep rest) (u : List UInt8) :
    ∃ p, sField .rrtype (typeText (be16 a b) ++ rest) u = ok (.go p (u ++ [a, b])) ∧ At p rest := by
  have hg := graphic_typeText (be16 a b)
  have ht := (typeName_facts (typeName_typeText (be16_lt a b))).2.2.2.1
  refine ⟨_, ?_, endPtr_app hg hs⟩
  simp only [sField]
  rw [tokOf_app hg hs, ht, ok_bind, if_neg h]
  have e := ofNat_be16 a b
  have e2 : UInt8.ofNat (be16 a b % 256) = UInt8.ofNat (be16 a b) := by
    apply UInt8.toNat.inj; rw [UInt8.toNat_ofNat', UInt8.toNat_ofNat']; omega
  unfold htons
  rw [e2, e]

theorem hexText_length (up : Bool) (s : List UInt8) : (hexText up s).length = 2 * s.length := by
  induction s with
  | nil => rfl
  | cons b s ih => rw [hexText_cons]; simp [ih]; omega

theorem scan_salt {s rest : List UInt8} (h : s.length < 256) (hs : Sep rest) (u : List UInt8) :
    sField .salt ((if s = [] then [45] else hexText false s) ++ rest) u = ok (.go (some rest) (u ++ encString s)) := by
  have hg : Graphic (if s = [] then [45] else hexText false s) := by
    split
    · decide
    · exact graphic_hexText _ _
  simp only [sField]
  rw [tokOf_app hg hs]
  by_cases h0 : s = []
  · subst h0; rfl
  · have hl := hexText_length false s
    have hpos : 0 < s.length := List.length_pos_of_ne_nil h0
    simp only [if_neg h0]
    rw [if_neg (by intro e; have := congrArg List.length e; simp at this; omega), if_neg (by omega), hl,
      show 2 * s.length / 2 = s.length by omega, sSalt_hex]
    simp [encString]

theorem base32_length_ge (s : List UInt8) (h : s ≠ []) : 2 ≤ (base32 s).length := by
  have := (C52_base32_text s h).2.1
  have := List.length_pos_of_ne_nil h
  omega

theorem scan_hash {s rest : List UInt8} (h : s.length < 256) (hs : Sep rest) (u : List UInt8) :
    sField .hash ((if s = [] then [48] else base32 s) ++ rest) u = ok (.go (some rest) (u ++ encString s)) := by
  have hg : Graphic (if s = [] then [48] else base32 s) := by
    split
    · decide
    · exact graphic_base32 _
  simp only [sField]
  rw [tokOf_app hg hs, afterTok_app hg hs]
  by_cases h0 : s = []
  · subst h0; rfl
  · have := base32_length_ge s h0
    simp only [if_neg h0]
    rw [if_neg (by omega), C52_base32_round_trip s (base32 s) rfl]
    simp only
    rw [if_neg (by omega)]
    simp [encString]

theorem euiScan_eq : ∀ (f : List UInt8), f ≠ [] → euiScan f.length (List.intercalate [45] (f.map fun b => hexText false [b])) = some f := by
  intro f
  induction f with
  | nil => intro h; exact absurd rfl h
  | cons b f ih =>
    intro _
    have hb := u8_lt b
    have h1 := (hexDigit_facts (b.toNat / 16) (by omega) false).2.2.2
    have h2 := (hexDigit_facts (b.toNat % 16) (by omega) false).2.2.2
    have e : UInt8.ofNat (16 * (b.toNat / 16) + b.toNat % 16) = b := by
      rw [show 16 * (b.toNat / 16) + b.toNat % 16 = b.toNat by omega, u8_ofNat_toNat]
    cases f with
    | nil =>
      simp only [List.map_cons, List.map_nil, intercalate_one, hexText_cons, List.length_cons, List.length_nil, Nat.zero_add]
      simp only [euiScan, h1, h2, if_true, e]
    | cons b2 f =>
      have := ih (by simp)
      simp only [List.map_cons] at this ⊢
      rw [intercalate_cons_cons, hexText_cons]
      simp only [List.length_cons] at this ⊢
      simp only [hexText, List.flatMap_nil, List.cons_append, List.nil_append]
      rw [euiScan]
      simp only [h1, h2]
      rw [if_neg (by omega)]
      simp only [hexText, List.flatMap_cons, List.flatMap_nil, List.append_nil, List.cons_append, List.nil_append] at this
      simp only [List.head?_cons, if_true, List.drop_succ_cons, List.drop_zero, List.flatMap_cons, List.flatMap_nil,
        List.append_nil, List.cons_append, List.nil_append, this, Option.map_some, e]

theorem eui_length : ∀ (f : List UInt8), f ≠ [] → (List.intercalate [45] (f.map fun b => hexText false [b])).length = 3 * f.length - 1 := by
  intro f
  induction f with
  | nil => intro h; exact absurd rfl h
  | cons b f ih =>
    intro _
    cases f with
    | nil => simp [hexText, intercalate_one]
    | cons b2 f =>
      have := ih (by simp)
      simp only [List.map_cons] at this ⊢
      rw [intercalate_cons_cons, List.length_append, List.length_append, this]
      simp [hexText]
      omega

theorem scan_eui {f : List UInt8} (hf : f ≠ []) (u : List UInt8) :
    sEui f.length (List.intercalate [45] (f.map fun b => hexText false [b])) u = ok (.go (some []) (u ++ f)) := by
  unfold sEui
  rw [if_neg (by rw [eui_length f hf]; simp), euiScan_eq f hf]

theorem scan_repstring (ss : List (List UInt8)) (h : ∀ s ∈ ss, s.length < 256) : ∀ (u : List UInt8) (fuel : Nat),
    (spaced (ss.map quoted)).length + 1 ≤ fuel →
    sRepstring fuel (spaced (ss.map quoted)) u = ok (.go (some []) (u ++ ss.flatMap encString)) := by
  induction ss with
  | nil =>
    intro u fuel hf
    obtain ⟨k, rfl⟩ : ∃ k, fuel = k + 1 := ⟨fuel - 1, by omega⟩
    simp [spaced, intercalate_nil, sRepstring]
  | cons s ss ih =>
    intro u fuel hf
    obtain ⟨k, rfl⟩ : ∃ k, fuel = k + 1 := ⟨fuel - 1, by omega⟩
    rw [List.map_cons, spaced_tails] at hf ⊢
    have h2 := quoted_length s
    have hsl := h s (by simp)
    have hc : ∃ cs, quoted s = 34 :: cs := ⟨_, by unfold quoted; simp; rfl⟩
    obtain ⟨cs, hc⟩ := hc
    have step : ∀ (rest : List UInt8), sRepstring (k + 1) (quoted s ++ rest) u = sRepstring k rest (u ++ encString s) := by
      intro rest
      have hq := fromStr_quoted s rest (u ++ [0])
      rw [hc, List.cons_append] at hq ⊢
      rw [sRepstring]
      simp only
      rw [if_neg (by decide)]
      rw [hq]
      have e1 : (34 :: (cs ++ rest)).drop (34 :: cs).length = rest := by simp
      have e2 : (u ++ [0] ++ s).length - u.length - 1 = s.length := by simp only [List.length_append, List.length_singleton]; omega
      simp only [e1, e2]
      rw [if_neg (by simp), if_neg (by omega), set_after]
      rfl
    rw [step]
    cases ss with
    | nil =>
      obtain ⟨k, rfl⟩ : ∃ j, k = j + 1 := ⟨k - 1, by simp [tails] at hf; omega⟩
      simp [tails, sRepstring]
    | cons s2 ss =>
      have e : tails (List.map quoted (s2 :: ss)) = 32 :: spaced (List.map quoted (s2 :: ss)) := by
        rw [List.map_cons, spaced_tails]; simp [tails]
      rw [e]
      have hl : (spaced (List.map quoted (s2 :: ss))).length + 2 ≤ k := by
        rw [e] at hf; simp at hf; simp; omega
      obtain ⟨k, rfl⟩ : ∃ j, k = j + 1 := ⟨k - 1, by omega⟩
      rw [sRepstring]
      simp only
      rw [if_pos (by rfl), ih (fun s hs => h s (by simp [hs])) _ _ (by omega)]
      simp [List.append_assoc]

end Wdns
