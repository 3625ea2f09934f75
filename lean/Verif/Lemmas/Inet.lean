import Verif.Model.Format
import Verif.Model.Libc
import Verif.Spec.Format
import Verif.Lemmas.Numerals

/-!
# Lemmas about IP address text
-/

namespace Wdns
open Outcome Spec

/-! ## IPv4 -/

theorem inet4Octet_eq : ∀ b < 256, inet4Octet b = decText b := by decide +kernel

theorem octet_digits {b : Nat} (h : b < 256) : decText b =
    if b < 10 then [UInt8.ofNat (48 + b)]
    else if b < 100 then [UInt8.ofNat (48 + b / 10), UInt8.ofNat (48 + b % 10)]
    else [UInt8.ofNat (48 + b / 100), UInt8.ofNat (48 + b / 10 % 10), UInt8.ofNat (48 + b % 10)] := by
  by_cases h1 : b < 10
  · simp only [h1, if_true]; exact decText_lt h1
  · simp only [h1, if_false]
    rw [decText_ge (by omega)]
    by_cases h2 : b < 100
    · simp only [h2, if_true]; rw [decText_lt (by omega)]; rfl
    · simp only [h2, if_false]
      rw [decText_ge (by omega), decText_lt (by omega), Nat.div_div_eq_div_mul]; rfl

theorem p4_digit {k cur : Nat} {cs done : List UInt8} {saw : Bool} (hk : k < 10) (h1 : saw = true → cur ≠ 0)
    (h2 : cur * 10 + k ≤ 255) (h3 : done.length < 4) :
    pton4Loop (UInt8.ofNat (48 + k) :: cs) done cur saw = pton4Loop cs done (cur * 10 + k) true := by
  have e : (UInt8.ofNat (48 + k)).toNat = 48 + k := toNat_ofNat_lt (by omega)
  have hd : 48 ≤ 48 + k ∧ 48 + k ≤ 57 := by omega
  have hs : 48 + k - 48 = k := by omega
  simp only [pton4Loop, e, hd, if_true, hs, and_self]
  rw [if_neg (fun h => h1 h.1 h.2), if_neg (by omega), if_neg (by omega)]

/-- Scanning an octet. -/
theorem p4_octet {b : Nat} (hb : b < 256) {cs done : List UInt8} (h3 : done.length < 4) :
    pton4Loop (decText b ++ cs) done 0 false = pton4Loop cs done b true := by
  rw [octet_digits hb]
  by_cases h1 : b < 10
  · simp only [h1, if_true, List.cons_append, List.nil_append]
    rw [p4_digit h1 (by simp) (by omega) h3]; simp
  · by_cases h2 : b < 100
    · simp only [h1, h2, if_true, if_false, List.cons_append, List.nil_append]
      rw [p4_digit (by omega) (by simp) (by omega) h3, p4_digit (by omega) (by omega) (by omega) h3,
        show (0 * 10 + b / 10) * 10 + b % 10 = b by omega]
    · simp only [h1, h2, if_false, List.cons_append, List.nil_append]
      rw [p4_digit (by omega) (by simp) (by omega) h3, p4_digit (by omega) (by omega) (by omega) h3,
        p4_digit (by omega) (by omega) (by omega) h3,
        show ((0 * 10 + b / 100) * 10 + b / 10 % 10) * 10 + b % 10 = b by omega]

theorem p4_dot {b : UInt8} {cs done : List UInt8} (h : done.length < 3) :
    pton4Loop (46 :: cs) done b.toNat true = pton4Loop cs (done ++ [b]) 0 false := by
  have h' : done.length ≠ 3 := by omega
  simp [pton4Loop, h']

theorem pton4_dottedQuad (a b c d : UInt8) : inetPton4 (dottedQuad a b c d) = some [a, b, c, d] := by
  unfold inetPton4 dottedQuad
  simp only [List.append_assoc, List.cons_append, List.nil_append]
  rw [p4_octet (u8_lt a) (by simp), p4_dot (by simp), p4_octet (u8_lt b) (by simp), p4_dot (by simp), p4_octet (u8_lt c) (by simp),
    p4_dot (by simp)]
  have := p4_octet (u8_lt d) (cs := []) (done := [] ++ [a] ++ [b] ++ [c]) (by simp)
  rw [List.append_nil] at this
  rw [this]
  simp [pton4Loop]

theorem octet_length {b : Nat} (h : b < 256) : 1 ≤ (decText b).length ∧ (decText b).length ≤ 3 := by
  rw [octet_digits h]
  split
  · simp
  · split <;> simp

theorem dottedQuad_length (a b c d : UInt8) : 7 ≤ (dottedQuad a b c d).length ∧ (dottedQuad a b c d).length ≤ 15 := by
  have := octet_length (u8_lt a); have := octet_length (u8_lt b); have := octet_length (u8_lt c); have := octet_length (u8_lt d)
  simp only [dottedQuad, List.length_append, List.length_singleton]
  omega

theorem inet4Ntop_eq (src : List UInt8) (size : Nat) (h : 16 ≤ size) (a b c d : UInt8) (rest : List UInt8) (hs : src = a :: b :: c :: d :: rest) :
    inet4Ntop src size = ok (some (dottedQuad a b c d)) := by
  subst hs
  unfold inet4Ntop
  rw [if_neg (by omega), rdN_ok (by simp)]
  simp only [ok_bind, List.drop_zero, List.take_succ_cons, List.take_zero, List.getD_cons_zero, List.getD_cons_succ]
  rw [inet4Octet_eq _ (u8_lt a), inet4Octet_eq _ (u8_lt b), inet4Octet_eq _ (u8_lt c), inet4Octet_eq _ (u8_lt d)]
  have hl := dottedQuad_length a b c d
  unfold dottedQuad at hl
  rw [wrN_ok (by simp only [List.length_nil]; omega)]
  simp only [ok_bind, List.nil_append]
  rw [wr_ok (by omega)]
  rfl

/-! ## IPv6: the words -/

/-- `hex16 w` without leading zeros. -/
theorem hex16_digits {w : Nat} (h : w < 65536) : hex16 w =
    (if w < 0x10 then [w]
    else if w < 0x100 then [w / 16, w % 16]
    else if w < 0x1000 then [w / 256, w / 16 % 16, w % 16]
    else [w / 4096, w / 256 % 16, w / 16 % 16, w % 16]).map fun d => (hexTable false).getD d 0 := by
  have hm : ∀ n, n &&& 0xf = n % 16 := fun n => Nat.and_two_pow_sub_one_eq_mod n 4
  have hsh : ∀ n, n >>> 4 = n / 16 := fun n => Nat.shiftRight_eq_div_pow n 4
  unfold hex16
  by_cases h1 : w < 0x10
  · have e1 : ¬ w ≥ 0x1000 := by omega
    have e2 : ¬ w ≥ 0x100 := by omega
    have e3 : ¬ w ≥ 0x10 := by omega
    have e4 : w / 16 = 0 := by omega
    have e5 : w % 16 = w := by omega
    simp [hex16Loop, hm, hsh, h1, e1, e2, e3, e4, e5]
  · by_cases h2 : w < 0x100
    · have e1 : ¬ w ≥ 0x1000 := by omega
      have e2 : ¬ w ≥ 0x100 := by omega
      have e3 : w ≥ 0x10 := by omega
      have e4 : w / 16 ≠ 0 := by omega
      have e5 : w / 16 / 16 = 0 := by omega
      have e6 : w / 16 % 16 = w / 16 := by omega
      simp [hex16Loop, hm, hsh, h1, h2, e1, e2, e3, e4, e5, e6, -Nat.div_eq_zero_iff]
    · by_cases h3 : w < 0x1000
      · have e1 : ¬ w ≥ 0x1000 := by omega
        have e2 : w ≥ 0x100 := by omega
        have e4 : w / 16 ≠ 0 := by omega
        have e5 : w / 16 / 16 ≠ 0 := by omega
        have e6 : w / 16 / 16 / 16 = 0 := by omega
        have e7 : w / 16 / 16 % 16 = w / 256 := by omega
        simp [hex16Loop, hm, hsh, h1, h2, h3, e1, e2, e4, e5, e6, e7, -Nat.div_eq_zero_iff]
      · have e1 : w ≥ 0x1000 := by omega
        have e4 : w / 16 ≠ 0 := by omega
        have e5 : w / 16 / 16 ≠ 0 := by omega
        have e6 : w / 16 / 16 / 16 ≠ 0 := by omega
        have e7 : w / 16 / 16 / 16 / 16 = 0 := by omega
        have e8 : w / 16 / 16 % 16 = w / 256 % 16 := by omega
        have e9 : w / 16 / 16 / 16 % 16 = w / 4096 := by omega
        simp [hex16Loop, hm, hsh, h1, h2, h3, e1, e4, e5, e6, e7, e8, e9, -Nat.div_eq_zero_iff]

theorem hex16_length {w : Nat} (h : w < 65536) : 1 ≤ (hex16 w).length ∧ (hex16 w).length ≤ 4 := by
  rw [hex16_digits h]
  split
  · simp
  · split
    · simp
    · split <;> simp

theorem hexDigit_table : ∀ d < 16, hexDigitValue ((hexTable false).getD d 0) = some d := by decide +kernel

theorem p6_digit {d : Nat} (hd : d < 16) {cs tp tok : List UInt8} {cp : Option Nat} {xd val : Nat} (h : xd < 4) (hv : val * 16 + d < 65536) :
    pton6Loop ((hexTable false).getD d 0 :: cs) tp cp tok xd val = pton6Loop cs tp cp tok (xd + 1) (val * 16 + d) := by
  simp only [pton6Loop, hexDigit_table d hd]
  rw [if_neg (by omega), if_neg (by omega)]

theorem p6_word {w : Nat} (h : w < 65536) (cs tp tok : List UInt8) (cp : Option Nat) :
    ∃ xd, 0 < xd ∧ pton6Loop (hex16 w ++ cs) tp cp tok 0 0 = pton6Loop cs tp cp tok xd w := by
  rw [hex16_digits h]
  by_cases h1 : w < 0x10
  · refine ⟨1, by omega, ?_⟩
    simp only [h1, if_true, List.map_cons, List.map_nil, List.cons_append, List.nil_append]
    rw [p6_digit h1 (by omega) (by omega)]; simp
  · by_cases h2 : w < 0x100
    · refine ⟨2, by omega, ?_⟩
      simp only [h1, h2, if_true, if_false, List.map_cons, List.map_nil, List.cons_append, List.nil_append]
      rw [p6_digit (by omega) (by omega) (by omega), p6_digit (by omega) (by omega) (by omega)]
      congr 1; omega
    · by_cases h3 : w < 0x1000
      · refine ⟨3, by omega, ?_⟩
        simp only [h1, h2, h3, if_true, if_false, List.map_cons, List.map_nil, List.cons_append, List.nil_append]
        rw [p6_digit (by omega) (by omega) (by omega), p6_digit (by omega) (by omega) (by omega), p6_digit (by omega) (by omega) (by omega)]
        congr 1; omega
      · refine ⟨4, by omega, ?_⟩
        simp only [h1, h2, h3, if_false, List.map_cons, List.map_nil, List.cons_append, List.nil_append]
        rw [p6_digit (by omega) (by omega) (by omega), p6_digit (by omega) (by omega) (by omega), p6_digit (by omega) (by omega) (by omega),
          p6_digit (by omega) (by omega) (by omega)]
        congr 1; omega

/-- The two bytes of a word. -/
def wordBytes (w : Nat) : List UInt8 := [UInt8.ofNat (w / 256), UInt8.ofNat (w % 256)]
/-- `:` and the word, for each word. -/
def colonHex (ws : List Nat) : List UInt8 := ws.flatMap fun w => 58 :: hex16 w

theorem p6_colon {cs tp tok : List UInt8} {cp : Option Nat} {xd w : Nat} (hx : 0 < xd) (hc : cs ≠ []) (ht : tp.length ≤ 14) :
    pton6Loop (58 :: cs) tp cp tok xd w = pton6Loop cs (tp ++ wordBytes w) cp cs 0 0 := by
  have hd : hexDigitValue 58 = none := by decide
  have hx' : xd ≠ 0 := by omega
  have ht' : ¬ tp.length + 2 > 16 := by omega
  simp only [pton6Loop, hd, if_true, hx', if_false, hc, ht', wordBytes]

theorem p6_dcolon {cs tp tok : List UInt8} {val : Nat} :
    pton6Loop (58 :: cs) tp none tok 0 val = pton6Loop cs tp (some tp.length) cs 0 val := by
  have hd : hexDigitValue 58 = none := by decide
  simp only [pton6Loop, hd, if_true]

theorem wordBytes_length (w : Nat) : (wordBytes w).length = 2 := rfl

/-- Pending word `w`, then `:word` for each of `ws`: all but the last are stored, the last is pending. -/
theorem p6_words (rest : List UInt8) (cp : Option Nat) : ∀ (ws : List Nat) (w : Nat) (tp tok : List UInt8) (xd : Nat), 0 < xd →
    (∀ x ∈ ws, x < 65536) → tp.length + 2 * ws.length ≤ 16 →
    ∃ tok' xd' tp' v, 0 < xd' ∧ pton6Loop (colonHex ws ++ rest) tp cp tok xd w = pton6Loop rest tp' cp tok' xd' v ∧
      tp' ++ wordBytes v = tp ++ (w :: ws).flatMap wordBytes := by
  intro ws
  induction ws with
  | nil => intro w tp tok xd hx _ _; exact ⟨tok, xd, tp, w, hx, by simp [colonHex], by simp⟩
  | cons x ws ih =>
    intro w tp tok xd hx hlt hl
    simp only [List.length_cons] at hl
    have hne : hex16 x ++ (colonHex ws ++ rest) ≠ [] := by
      have := (hex16_length (hlt x (by simp))).1
      intro e
      have e' := congrArg List.length e
      rw [List.length_append, List.length_nil] at e'
      omega
    obtain ⟨xd', hxd', e⟩ := p6_word (hlt x (by simp)) (colonHex ws ++ rest) (tp ++ wordBytes w) (hex16 x ++ (colonHex ws ++ rest)) cp
    obtain ⟨tok2, xd2, tp2, v, h1, h2, h3⟩ := ih x (tp ++ wordBytes w) (hex16 x ++ (colonHex ws ++ rest)) xd' hxd'
      (fun y hy => hlt y (by simp [hy])) (by simp [wordBytes_length]; omega)
    refine ⟨tok2, xd2, tp2, v, h1, ?_, ?_⟩
    · have : colonHex (x :: ws) ++ rest = 58 :: (hex16 x ++ (colonHex ws ++ rest)) := by simp [colonHex]
      rw [this, p6_colon hx hne (by omega), e, h2]
    · rw [h3]; simp

theorem p6_finish {tp tok : List UInt8} {cp : Option Nat} {xd w : Nat} (hx : 0 < xd) {full : List UInt8}
    (hf : tp ++ wordBytes w = full) (hl : full.length ≤ 16) :
    pton6Loop [] tp cp tok xd w = (match cp with
      | none => if full.length = 16 then some full else none
      | some n => if full.length = 16 then none else some (full.take n ++ List.replicate (16 - full.length) 0 ++ full.drop n)) := by
  subst hf
  have hl' : ¬ (xd > 0 ∧ tp.length + 2 > 16) := by simp [wordBytes_length] at hl; omega
  simp only [pton6Loop, pton6Finish]
  rw [if_neg hl', if_pos hx]
  rfl

/-- The words joined by `:`. -/
def joinHex : List Nat → List UInt8
  | [] => []
  | w :: ws => hex16 w ++ colonHex ws

theorem flatMap_word_length (ws : List Nat) : (ws.flatMap wordBytes).length = 2 * ws.length := by
  induction ws with
  | nil => rfl
  | cons w ws ih => simp only [List.flatMap_cons, List.length_append, ih, wordBytes_length, List.length_cons]; omega

/-- Words after `::`. -/
theorem p6_after {tp tok : List UInt8} (post : List Nat) (hlt : ∀ x ∈ post, x < 65536) (hl : tp.length + 2 * post.length ≤ 14) :
    pton6Loop (joinHex post) tp (some tp.length) tok 0 0 =
      some (tp ++ List.replicate (16 - tp.length - 2 * post.length) 0 ++ post.flatMap wordBytes) := by
  cases post with
  | nil =>
    have h : ¬ tp.length = 16 := by simp at hl; omega
    simp [joinHex, pton6Loop, pton6Finish, h]
  | cons w ws =>
    simp only [List.length_cons] at hl
    obtain ⟨xd, hx, e⟩ := p6_word (hlt w (by simp)) (colonHex ws) tp tok (some tp.length)
    obtain ⟨tok', xd', tp', v, hx', e2, e3⟩ := p6_words [] (some tp.length) ws w tp tok xd hx (fun y hy => hlt y (by simp [hy])) (by omega)
    rw [List.append_nil] at e2
    have hlen : (tp ++ (w :: ws).flatMap wordBytes).length = tp.length + 2 * (ws.length + 1) := by
      rw [List.length_append, flatMap_word_length]; simp
    rw [joinHex, e, e2, p6_finish hx' e3 (by omega)]
    simp only [hlen]
    rw [if_neg (by omega), List.take_left, List.drop_left, Nat.sub_sub, List.length_cons]

/-- Words before a `::`. -/
theorem p6_before {tok rest : List UInt8} (pre : List Nat) (hlt : ∀ x ∈ pre, x < 65536) (hl : 2 * pre.length ≤ 14) (hne : pre ≠ []) :
    pton6Loop (joinHex pre ++ 58 :: 58 :: rest) [] none tok 0 0 =
      pton6Loop rest (pre.flatMap wordBytes) (some (2 * pre.length)) rest 0 0 := by
  cases pre with
  | nil => exact absurd rfl hne
  | cons w ws =>
    simp only [List.length_cons] at hl
    obtain ⟨xd, hx, e⟩ := p6_word (hlt w (by simp)) (colonHex ws ++ 58 :: 58 :: rest) [] tok none
    obtain ⟨tok', xd', tp', v, hx', e2, e3⟩ := p6_words (58 :: 58 :: rest) none ws w [] tok xd hx (fun y hy => hlt y (by simp [hy]))
      (by simp; omega)
    have hlen : (tp' ++ wordBytes v).length = 2 * (ws.length + 1) := by rw [e3, List.nil_append, flatMap_word_length]; simp
    rw [joinHex, List.append_assoc, e, e2, p6_colon hx' (by simp) (by rw [List.length_append, wordBytes_length] at hlen; omega), p6_dcolon,
      hlen, e3]
    simp

theorem hexDigit_dec : ∀ k < 10, hexDigitValue (UInt8.ofNat (48 + k)) = some k := by decide +kernel

theorem p6_dec {k : Nat} (hk : k < 10) {cs tp tok : List UInt8} {cp : Option Nat} {xd val : Nat} (h : xd < 4) (hv : val * 16 + k < 65536) :
    pton6Loop (UInt8.ofNat (48 + k) :: cs) tp cp tok xd val = pton6Loop cs tp cp tok (xd + 1) (val * 16 + k) := by
  simp only [pton6Loop, hexDigit_dec k hk]
  rw [if_neg (by omega), if_neg (by omega)]

theorem p6_octet {b : Nat} (hb : b < 256) (cs tp tok : List UInt8) (cp : Option Nat) :
    ∃ xd val, pton6Loop (decText b ++ cs) tp cp tok 0 0 = pton6Loop cs tp cp tok xd val := by
  rw [octet_digits hb]
  by_cases h1 : b < 10
  · simp only [h1, if_true, List.cons_append, List.nil_append]
    rw [p6_dec h1 (by omega) (by omega)]; exact ⟨_, _, rfl⟩
  · by_cases h2 : b < 100
    · simp only [h1, h2, if_true, if_false, List.cons_append, List.nil_append]
      rw [p6_dec (by omega) (by omega) (by omega), p6_dec (by omega) (by omega) (by omega)]; exact ⟨_, _, rfl⟩
    · simp only [h1, h2, if_false, List.cons_append, List.nil_append]
      rw [p6_dec (by omega) (by omega) (by omega), p6_dec (by omega) (by omega) (by omega), p6_dec (by omega) (by omega) (by omega)]
      exact ⟨_, _, rfl⟩

theorem p6_quad (a b c d : UInt8) (tp : List UInt8) (cp : Option Nat) (h : tp.length ≤ 12) :
    pton6Loop (dottedQuad a b c d) tp cp (dottedQuad a b c d) 0 0 = pton6Finish (tp ++ [a, b, c, d]) cp 0 0 := by
  have e : dottedQuad a b c d = decText a.toNat ++ 46 :: (decText b.toNat ++ [46] ++ decText c.toNat ++ [46] ++ decText d.toNat) := by
    simp [dottedQuad]
  obtain ⟨xd, val, h1⟩ := p6_octet (u8_lt a) (46 :: (decText b.toNat ++ [46] ++ decText c.toNat ++ [46] ++ decText d.toNat)) tp
    (dottedQuad a b c d) cp
  rw [← e] at h1
  rw [h1]
  have hd : hexDigitValue 46 = none := by decide
  have hl : tp.length + 4 ≤ 16 := by omega
  simp only [pton6Loop, hd, hl, pton4_dottedQuad]
  simp [pton6Finish]

/-! ## IPv6: the formatter -/

/-- `(b, l)` is a run of zero words of `W`. -/
def ZRun (W : List Nat) (r : Nat × Nat) : Prop := r.1 + r.2 ≤ W.length ∧ ∀ k, r.1 ≤ k → k < r.1 + r.2 → W.getD k 0 = 0

theorem betterRun_or (a b : Option (Nat × Nat)) : betterRun a b = a ∨ betterRun a b = b := by
  rcases a with _ | a <;> rcases b with _ | b <;> simp only [betterRun, true_or, or_true]
  split <;> simp

theorem runLoop_zrun (W : List Nat) : ∀ (ws : List Nat) (i : Nat) (best cur : Option (Nat × Nat)), W.drop i = ws →
    (∀ r, best = some r → ZRun W r) → (∀ r, cur = some r → ZRun W r ∧ r.1 + r.2 = i) →
    ∀ r, runLoop i ws best cur = some r → ZRun W r := by
  intro ws
  induction ws with
  | nil =>
    intro i best cur _ hb hc r hr
    simp only [runLoop] at hr
    rcases betterRun_or best cur with h | h
    · exact hb r (h ▸ hr)
    · exact (hc r (h ▸ hr)).1
  | cons w ws ih =>
    intro i best cur hd hb hc r hr
    have hi : i < W.length := by
      have := congrArg List.length hd
      simp at this; omega
    have hw : W.getD i 0 = w := by
      have := congrArg (·[0]?) hd
      simp at this
      simp [this]
    have hd' : W.drop (i + 1) = ws := by
      rw [← List.drop_drop, hd]; rfl
    simp only [runLoop] at hr
    by_cases h0 : w = 0
    · simp only [h0, if_true] at hr
      refine ih (i + 1) best _ hd' hb ?_ r hr
      intro r hr
      rcases cur with _ | ⟨b, l⟩
      · simp only [Option.some.injEq] at hr
        subst hr
        refine ⟨⟨by simp; omega, ?_⟩, rfl⟩
        intro k h1 h2
        simp only at h1 h2
        have : k = i := by omega
        rw [this, hw, h0]
      · simp only [Option.some.injEq] at hr
        subst hr
        obtain ⟨⟨h1, h2⟩, h3⟩ := hc _ rfl
        simp only at h1 h2 h3
        refine ⟨⟨by simp only; omega, ?_⟩, by simp only; omega⟩
        intro k hk1 hk2
        simp only at hk1 hk2
        by_cases hki : k = i
        · rw [hki, hw, h0]
        · exact h2 k hk1 (by omega)
    · simp only [h0, if_false] at hr
      refine ih (i + 1) _ none hd' ?_ (by simp) r hr
      intro r hr
      rcases betterRun_or best cur with h | h
      · exact hb r (h ▸ hr)
      · exact (hc r (h ▸ hr)).1

theorem bestRun_zrun (W : List Nat) (r : Nat × Nat) (h : bestRun W = some r) : ZRun W r ∧ 2 ≤ r.2 := by
  unfold bestRun at h
  cases e : runLoop 0 W none none with
  | none => simp [e] at h
  | some q =>
    obtain ⟨b, l⟩ := q
    simp only [e] at h
    split at h
    · simp at h
    · simp only [Option.some.injEq] at h
      subst h
      exact ⟨runLoop_zrun W W 0 none none rfl (by simp) (by simp) _ e, by simp only; omega⟩

theorem zrun_split {W : List Nat} {b l : Nat} (h : ZRun W (b, l)) : W = W.take b ++ List.replicate l 0 ++ W.drop (b + l) := by
  obtain ⟨h1, h2⟩ := h
  simp only at h1 h2
  have hm : (W.drop b).take l = List.replicate l 0 := by
    rw [List.eq_replicate_iff]
    refine ⟨by simp; omega, ?_⟩
    intro x hx
    obtain ⟨k, hk, e⟩ := List.mem_iff_getElem.mp hx
    simp only [List.length_take, List.length_drop] at hk
    simp only [List.getElem_take, List.getElem_drop] at e
    have := h2 (b + k) (by omega) (by omega)
    rw [List.getD_eq_getElem?_getD, List.getElem?_eq_getElem (by omega), Option.getD_some, e] at this
    exact this
  rw [← hm, ← List.drop_drop, List.append_assoc, List.take_append_drop, List.take_append_drop]

/-- Words outside the run, not the first, no embedded IPv4. -/
theorem fmt_words (src : List UInt8) (W : List Nat) (best : Option (Nat × Nat)) (size : Nat) (hW : ∀ x ∈ W, x < 65536) (m : Nat) :
    ∀ (n i : Nat) (out : List UInt8), i ≠ 0 → i + n ≤ W.length → (∀ k, i ≤ k → k < i + n → inRun best k = false) →
    (∀ k, i ≤ k → k < i + n → ¬ (k = 6 ∧ (best = some (0, 6) ∨ (best = some (0, 5) ∧ W.getD 5 0 = 0xffff)))) →
    out.length + 5 * n ≤ size →
    fmt6Loop src W best size (n + m) i out = fmt6Loop src W best size m (i + n) (out ++ colonHex ((W.drop i).take n)) := by
  intro n
  induction n with
  | zero => intro i out _ _ _ _ _; simp [colonHex]
  | succ n ih =>
    intro i out hi hl hr h6 hs
    have hmem : W.getD i 0 ∈ W := by
      rw [List.getD_eq_getElem?_getD, List.getElem?_eq_getElem (by omega), Option.getD_some]; exact List.getElem_mem _
    have hw := hex16_length (hW _ hmem)
    rw [show n + 1 + m = (n + m) + 1 by omega]
    simp only [fmt6Loop]
    rw [if_neg (by rw [hr i (by omega) (by omega)]; simp), if_pos hi, wr_ok (by omega), ok_bind, if_neg (h6 i (by omega) (by omega)),
      wrN_ok (by simp only [List.length_append, List.length_singleton]; omega), ok_bind, ih (i + 1) _ (by omega) (by omega) (fun k h1 h2 => hr k (by omega) (by omega))
      (fun k h1 h2 => h6 k (by omega) (by omega)) (by simp only [List.length_append, List.length_singleton]; omega)]
    have hd : (W.drop i).take (n + 1) = W.getD i 0 :: (W.drop (i + 1)).take n := by
      rw [List.drop_eq_getElem_cons (by omega), List.take_succ_cons, List.getD_eq_getElem?_getD, List.getElem?_eq_getElem (by omega),
        Option.getD_some]
    rw [hd, show i + 1 + n = i + (n + 1) by omega]
    simp [colonHex]

/-- Inside the run nothing is printed after its first word. -/
theorem fmt_run (src : List UInt8) (W : List Nat) (b l size : Nat) (m : Nat) :
    ∀ (n i : Nat) (out : List UInt8), b < i → i + n ≤ b + l →
    fmt6Loop src W (some (b, l)) size (n + m) i out = fmt6Loop src W (some (b, l)) size m (i + n) out := by
  intro n
  induction n with
  | zero => intro i out _ _; simp
  | succ n ih =>
    intro i out hb hl
    rw [show n + 1 + m = (n + m) + 1 by omega]
    have hin : inRun (some (b, l)) i = true := by simp [inRun]; omega
    have hne : ¬ (some b = some i) := by simp; omega
    simp only [fmt6Loop, hin, if_true, Option.map_some, hne, if_false, ok_bind]
    rw [ih (i + 1) out (by omega) (by omega), show i + 1 + n = i + (n + 1) by omega]

/-- The first word of the run. -/
theorem fmt_base (src : List UInt8) (W : List Nat) (b l size n : Nat) (out : List UInt8) (hl : 0 < l) (hs : out.length < size) :
    fmt6Loop src W (some (b, l)) size (n + 1) b out = fmt6Loop src W (some (b, l)) size n (b + 1) (out ++ [58]) := by
  have hin : inRun (some (b, l)) b = true := by simp [inRun]; omega
  simp only [fmt6Loop, hin, if_true, Option.map_some]
  rw [wr_ok (by omega), ok_bind]

/-- The first word, outside the run. -/
theorem fmt_first (src : List UInt8) (W : List Nat) (best : Option (Nat × Nat)) (size n : Nat) (hs : 4 ≤ size) (hr : inRun best 0 = false)
    (hw : W.getD 0 0 < 65536) :
    fmt6Loop src W best size (n + 1) 0 [] = fmt6Loop src W best size n 1 (hex16 (W.getD 0 0)) := by
  have := hex16_length hw
  simp only [fmt6Loop, hr, Bool.false_eq_true, if_false, ne_eq, not_true_eq_false, ok_bind]
  rw [if_neg (by omega), wrN_ok (by simp only [List.length_nil]; omega), ok_bind, List.nil_append]

theorem colonHex_length (ws : List Nat) (h : ∀ x ∈ ws, x < 65536) : (colonHex ws).length ≤ 5 * ws.length := by
  induction ws with
  | nil => simp [colonHex]
  | cons w ws ih =>
    have := hex16_length (h w (by simp))
    have := ih fun x hx => h x (by simp [hx])
    simp only [colonHex, List.flatMap_cons, List.length_append, List.length_cons] at *
    omega

/-- Everything up to the run. -/
theorem fmt_pre (src : List UInt8) (W : List Nat) (best : Option (Nat × Nat)) (size : Nat) (hs : 45 ≤ size) (hW : ∀ x ∈ W, x < 65536)
    (hl : W.length = 8) (b m : Nat) (hb : b + m = 8) (hr : ∀ k < b, inRun best k = false)
    (h6 : ∀ k < b, ¬ (k = 6 ∧ (best = some (0, 6) ∨ (best = some (0, 5) ∧ W.getD 5 0 = 0xffff)))) :
    fmt6Loop src W best size 8 0 [] = fmt6Loop src W best size m b (joinHex (W.take b)) ∧ (joinHex (W.take b)).length ≤ 5 * b := by
  cases b with
  | zero =>
    have : m = 8 := by omega
    subst this; simp [joinHex]
  | succ b =>
    have hw0 : W.getD 0 0 < 65536 := by
      rw [List.getD_eq_getElem?_getD, List.getElem?_eq_getElem (by omega), Option.getD_some]; exact hW _ (List.getElem_mem _)
    have hh := hex16_length hw0
    have ht : W.take (b + 1) = W.getD 0 0 :: (W.drop 1).take b := by
      cases W with
      | nil => simp at hl
      | cons => rfl
    refine ⟨?_, ?_⟩
    · rw [show (8 : Nat) = (b + m) + 1 by omega, fmt_first src W best size _ (by omega) (hr 0 (by omega)) hw0,
        fmt_words src W best size hW m b 1 _ (by omega) (by omega) (fun k _ h2 => hr k (by omega)) (fun k _ h2 => h6 k (by omega)) (by omega),
        ht, joinHex, Nat.add_comm 1 b]
    · rw [ht, joinHex, List.length_append]
      have := colonHex_length ((W.drop 1).take b) fun x hx => hW x (List.mem_of_mem_drop (List.mem_of_mem_take hx))
      have : ((W.drop 1).take b).length ≤ b := by simp; omega
      omega

/-- The text after the `:` of the run. -/
theorem colon_join {post : List Nat} : [58] ++ colonHex post ++ (if post = [] then [58] else []) = 58 :: 58 :: joinHex post := by
  cases post with
  | nil => rfl
  | cons w ws => simp [colonHex, joinHex]

/-- The text without embedded IPv4, with a run. -/
theorem fmt_run_text (src : List UInt8) (W : List Nat) (b l size : Nat) (hs : 46 ≤ size) (hW : ∀ x ∈ W, x < 65536) (hl : W.length = 8)
    (hbl : b + l ≤ 8) (hl2 : 2 ≤ l) (h4 : ¬ ((b, l) = (0, 6) ∨ ((b, l) = (0, 5) ∧ W.getD 5 0 = 0xffff))) :
    ∃ out, fmt6Loop src W (some (b, l)) size 8 0 [] = ok (some out) ∧
      out ++ (if runAtEnd (some (b, l)) then [58] else []) = joinHex (W.take b) ++ 58 :: 58 :: joinHex (W.drop (b + l)) ∧
      out.length ≤ 40 := by
  have h4' : ¬ (some (b, l) = some (0, 6) ∨ (some (b, l) = some (0, 5) ∧ W.getD 5 0 = 0xffff)) := by simpa using h4
  obtain ⟨e1, e2⟩ := fmt_pre src W (some (b, l)) size (by omega) hW hl b (8 - b) (by omega)
    (fun k hk => by simp [inRun]; omega) (fun k _ h => h4' h.2)
  obtain ⟨r, hr⟩ : ∃ r, 8 - b = (l - 1 + (r + 0)) + 1 := ⟨8 - b - l, by omega⟩
  rw [e1, hr, fmt_base src W b l size _ _ (by omega) (by omega), fmt_run src W b l size _ (l - 1) (b + 1) _ (by omega) (by omega),
    fmt_words src W (some (b, l)) size hW 0 r (b + 1 + (l - 1)) _ (by omega) (by omega)
      (fun k h1 h2 => by simp [inRun]; omega) (fun k _ _ h => h4' h.2) (by simp only [List.length_append, List.length_singleton]; omega)]
  have hbl' : b + 1 + (l - 1) = b + l := by omega
  have hdl : (W.drop (b + l)).length = r := by rw [List.length_drop]; omega
  refine ⟨_, rfl, ?_, ?_⟩
  · have htk : (W.drop (b + l)).take r = W.drop (b + l) := List.take_of_length_le (by omega)
    rw [hbl', htk, ← colon_join]
    have : (runAtEnd (some (b, l)) = true) ↔ W.drop (b + l) = [] := by
      rw [← List.length_eq_zero_iff, hdl]; simp [runAtEnd]; omega
    simp only [this, List.append_assoc]
  · have := colonHex_length (List.take r (List.drop (b + 1 + (l - 1)) W)) fun x hx => hW x (List.mem_of_mem_drop (List.mem_of_mem_take hx))
    have : (List.take r (List.drop (b + 1 + (l - 1)) W)).length ≤ r := by simp; omega
    simp only [List.length_append, List.length_singleton]
    omega

/-- Scanning back a text with a run. -/
theorem scan_run_text (W : List Nat) (b l : Nat) (hW : ∀ x ∈ W, x < 65536) (hl : W.length = 8) (hz : ZRun W (b, l)) (hl2 : 2 ≤ l) :
    inetPton6 (joinHex (W.take b) ++ 58 :: 58 :: joinHex (W.drop (b + l))) = some (W.flatMap wordBytes) := by
  have hs := zrun_split hz
  have hb : b + l ≤ 8 := by have := hz.1; simp only at this; omega
  have hd : 2 * (W.drop (b + l)).length = 16 - 2 * b - 2 * l := by rw [List.length_drop]; omega
  have hpost : ∀ x ∈ W.drop (b + l), x < 65536 := fun x hx => hW x (List.mem_of_mem_drop hx)
  have hzero : (List.replicate l 0).flatMap wordBytes = List.replicate (2 * l) 0 := by
    clear hz hl2 hs hb hd hpost
    induction l with
    | zero => rfl
    | succ l ih => rw [List.replicate_succ, List.flatMap_cons, ih, show 2 * (l + 1) = 2 * l + 1 + 1 by omega, List.replicate_succ, List.replicate_succ]; rfl
  have goal : W.flatMap wordBytes = (W.take b).flatMap wordBytes ++ List.replicate (2 * l) 0 ++ (W.drop (b + l)).flatMap wordBytes := by
    conv => lhs; rw [hs]
    simp only [List.flatMap_append, hzero]
  rw [goal]
  by_cases hb0 : b = 0
  · subst hb0
    have j0 : joinHex [] = [] := rfl
    simp only [List.take_zero, j0, List.nil_append, inetPton6, if_true, List.flatMap_nil]
    rw [p6_dcolon, p6_after _ hpost (by simp only [List.length_nil]; omega)]
    simp only [List.nil_append, List.length_nil]
    congr 3; omega
  · have hne : W.take b ≠ [] := by
      intro h
      have := congrArg List.length h
      rw [List.length_take, List.length_nil] at this; omega
    have hpl : (W.take b).length = b := by simp; omega
    have hfirst : ∃ c cs, joinHex (W.take b) ++ 58 :: 58 :: joinHex (W.drop (b + l)) = c :: cs ∧ c ≠ 58 := by
      cases hp : W.take b with
      | nil => exact absurd hp hne
      | cons w ws =>
        have hw : w < 65536 := hW w (List.mem_of_mem_take (hp ▸ List.mem_cons_self))
        have hd58 : ∀ d < 16, (hexTable false).getD d 0 ≠ 58 := by decide +kernel
        rw [joinHex, hex16_digits hw]
        by_cases h1 : w < 0x10
        · simp only [h1, if_true, List.map_cons, List.cons_append]; exact ⟨_, _, rfl, hd58 _ h1⟩
        · by_cases h2 : w < 0x100
          · simp only [h1, h2, if_true, if_false, List.map_cons, List.cons_append]; exact ⟨_, _, rfl, hd58 _ (by omega)⟩
          · by_cases h3 : w < 0x1000
            · simp only [h1, h2, h3, if_true, if_false, List.map_cons, List.cons_append]; exact ⟨_, _, rfl, hd58 _ (by omega)⟩
            · simp only [h1, h2, h3, if_false, List.map_cons, List.cons_append]; exact ⟨_, _, rfl, hd58 _ (by omega)⟩
    obtain ⟨c, cs, e, hc⟩ := hfirst
    have hstart : inetPton6 (c :: cs) = pton6Loop (c :: cs) [] none (c :: cs) 0 0 := by simp only [inetPton6, hc, if_false]
    rw [e, hstart, ← e, p6_before _ (fun x hx => hW x (List.mem_of_mem_take hx)) (by omega) hne]
    have hfl : ((W.take b).flatMap wordBytes).length = 2 * (W.take b).length := flatMap_word_length _
    rw [← hfl, p6_after _ hpost (by omega), hfl, hpl, hd, show 16 - 2 * b - (16 - 2 * b - 2 * l) = 2 * l by omega]

theorem joinHex_first (w : Nat) (ws : List Nat) (hw : w < 65536) (rest : List UInt8) :
    inetPton6 (joinHex (w :: ws) ++ rest) = pton6Loop (joinHex (w :: ws) ++ rest) [] none (joinHex (w :: ws) ++ rest) 0 0 := by
  have hfirst : ∃ c cs, joinHex (w :: ws) ++ rest = c :: cs ∧ c ≠ 58 := by
    have hd58 : ∀ d < 16, (hexTable false).getD d 0 ≠ 58 := by decide +kernel
    rw [joinHex, hex16_digits hw]
    by_cases h1 : w < 0x10
    · simp only [h1, if_true, List.map_cons, List.cons_append]; exact ⟨_, _, rfl, hd58 _ h1⟩
    · by_cases h2 : w < 0x100
      · simp only [h1, h2, if_true, if_false, List.map_cons, List.cons_append]; exact ⟨_, _, rfl, hd58 _ (by omega)⟩
      · by_cases h3 : w < 0x1000
        · simp only [h1, h2, h3, if_true, if_false, List.map_cons, List.cons_append]; exact ⟨_, _, rfl, hd58 _ (by omega)⟩
        · simp only [h1, h2, h3, if_false, List.map_cons, List.cons_append]; exact ⟨_, _, rfl, hd58 _ (by omega)⟩
  obtain ⟨c, cs, e, hc⟩ := hfirst
  rw [e]
  simp only [inetPton6, hc, if_false]

theorem scan_plain (w : Nat) (ws : List Nat) (hW : ∀ x ∈ w :: ws, x < 65536) (hl : ws.length = 7) :
    inetPton6 (joinHex (w :: ws)) = some ((w :: ws).flatMap wordBytes) := by
  have h0 := joinHex_first w ws (hW w (by simp)) []
  rw [List.append_nil] at h0
  rw [h0]
  obtain ⟨xd, hx, e⟩ := p6_word (hW w (by simp)) (colonHex ws) [] (joinHex (w :: ws)) none
  obtain ⟨tok', xd', tp', v, hx', e2, e3⟩ := p6_words [] none ws w [] (joinHex (w :: ws)) xd hx (fun y hy => hW y (by simp [hy]))
      (by simp only [List.length_nil]; omega)
  rw [List.append_nil] at e2
  have hlen : ((w :: ws).flatMap wordBytes).length = 16 := by rw [flatMap_word_length, List.length_cons]; omega
  rw [List.nil_append] at e3
  rw [show joinHex (w :: ws) = hex16 w ++ colonHex ws from rfl] at e e2 ⊢
  rw [e, e2, p6_finish hx' e3 (by omega)]
  simp only [hlen, if_true]

/-- The words of sixteen bytes. -/
theorem words_eq (b : List UInt8) (h : b.length = 16) :
    let W := (List.range 8).map fun k => ((b.getD (2 * k) 0).toNat <<< 8) ||| (b.getD (2 * k + 1) 0).toNat
    W.length = 8 ∧ (∀ x ∈ W, x < 65536) ∧ W.flatMap wordBytes = b := by
  have hw : ∀ x y : UInt8, (x.toNat <<< 8) ||| y.toNat = x.toNat * 256 + y.toNat := by
    intro x y
    rw [← Nat.shiftLeft_add_eq_or_of_lt (u8_lt y), Nat.shiftLeft_eq]
  have hb : ∀ x y : UInt8, wordBytes (x.toNat * 256 + y.toNat) = [x, y] := by
    intro x y
    have hx := u8_lt x; have hy := u8_lt y
    unfold wordBytes
    rw [show (x.toNat * 256 + y.toNat) / 256 = x.toNat by omega, show (x.toNat * 256 + y.toNat) % 256 = y.toNat by omega,
      UInt8.ofNat_toNat, UInt8.ofNat_toNat]
  refine ⟨by simp, ?_, ?_⟩
  · intro x hx
    obtain ⟨k, _, rfl⟩ := List.mem_map.mp hx
    rw [hw]
    have := u8_lt (b.getD (2 * k) 0); have := u8_lt (b.getD (2 * k + 1) 0)
    omega
  · match b, h with
    | [b0, b1, b2, b3, b4, b5, b6, b7, b8, b9, b10, b11, b12, b13, b14, b15], _ =>
      simp only [List.range, List.range.loop, List.map_cons, List.map_nil, hw, List.flatMap_cons, List.flatMap_nil, hb]
      rfl

/-! ## The text is that of RFC 5952 -/

theorem hexDigit_getD (u : Bool) : ∀ d < 16, (hexTable u).getD d 0 = hexDigit u d := by cases u <;> decide +kernel

theorem hex16_hexWord {w : Nat} (h : w < 65536) : hex16 w = hexWord w := by
  rw [hex16_digits h]
  unfold hexWord
  by_cases h1 : w < 0x10
  · simp only [h1, if_true, List.map_cons, List.map_nil]
    rw [hexDigit_getD _ _ h1]
  · by_cases h2 : w < 0x100
    · simp only [h1, h2, if_true, if_false, List.map_cons, List.map_nil]
      rw [hexDigit_getD _ _ (by omega), hexDigit_getD _ _ (by omega)]
    · by_cases h3 : w < 0x1000
      · simp only [h1, h2, h3, if_true, if_false, List.map_cons, List.map_nil]
        rw [hexDigit_getD _ _ (by omega), hexDigit_getD _ _ (by omega), hexDigit_getD _ _ (by omega)]
      · simp only [h1, h2, h3, if_false, List.map_cons, List.map_nil]
        rw [hexDigit_getD _ _ (by omega), hexDigit_getD _ _ (by omega), hexDigit_getD _ _ (by omega), hexDigit_getD _ _ (by omega)]

theorem colonHex_text (ws : List Nat) (w : Nat) (h : ∀ x ∈ w :: ws, x < 65536) : hexWord w ++ colonHex ws = wordsText (w :: ws) := by
  induction ws generalizing w with
  | nil => simp [colonHex, wordsText, List.intercalate]
  | cons v vs ih =>
    have h1 := ih v fun x hx => h x (List.mem_cons_of_mem _ hx)
    have : wordsText (w :: v :: vs) = hexWord w ++ 58 :: wordsText (v :: vs) := by
      simp [wordsText, List.intercalate, List.intersperse]
    rw [this, ← h1]
    simp only [colonHex, List.flatMap_cons, hex16_hexWord (h v (by simp))]
    simp

theorem joinHex_text (ws : List Nat) (h : ∀ x ∈ ws, x < 65536) : joinHex ws = wordsText ws := by
  cases ws with
  | nil => rfl
  | cons w ws => rw [joinHex, hex16_hexWord (h w (by simp)), colonHex_text ws w h]

/-- Only which words are zero matters. -/
def zbit (w : Nat) : Nat := if w = 0 then 0 else 1

theorem runLoop_zbit (ws : List Nat) : ∀ i best cur, runLoop i (ws.map zbit) best cur = runLoop i ws best cur := by
  induction ws with
  | nil => intros; rfl
  | cons w ws ih =>
    intro i best cur
    simp only [List.map_cons, runLoop]
    have : (zbit w = 0) = (w = 0) := by unfold zbit; split <;> simp_all
    simp only [this, ih]

theorem bestRun_zbit (ws : List Nat) : bestRun (ws.map zbit) = bestRun ws := by
  simp only [bestRun, runLoop_zbit]

theorem zeroRun_zbit (ws : List Nat) : zeroRun (ws.map zbit) = zeroRun ws := by
  have hz : ∀ l : List Nat, (l.map zbit).all (· = 0) = l.all (· = 0) := by
    intro l
    induction l with
    | nil => rfl
    | cons w ws ih =>
      simp only [List.map_cons, List.all_cons, ih]
      have : (zbit w = 0) = (w = 0) := by unfold zbit; split <;> simp_all
      simp only [this]
  simp only [zeroRun, ← List.map_drop, ← List.map_take, hz]

def bits8 (n : Nat) : List Nat := (List.range 8).map fun k => n / 2 ^ k % 2

theorem bestRun_bits : ∀ n < 256, bestRun (bits8 n) = zeroRun (bits8 n) := by decide +kernel

theorem bits8_surj (ws : List Nat) (hl : ws.length = 8) : ∃ n < 256, ws.map zbit = bits8 n := by
  match ws, hl with
  | [a, b, c, d, e, f, g, h], _ =>
    have hz : ∀ x, zbit x < 2 := fun x => by unfold zbit; split <;> omega
    have ha := hz a; have hb := hz b; have hc := hz c; have hd := hz d
    have he := hz e; have hf := hz f; have hg := hz g; have hh := hz h
    refine ⟨zbit a + 2 * zbit b + 4 * zbit c + 8 * zbit d + 16 * zbit e + 32 * zbit f + 64 * zbit g + 128 * zbit h, by omega, ?_⟩
    simp only [bits8, List.range, List.range.loop, List.map_cons, List.map_nil, List.cons.injEq, and_true]
    refine ⟨?_, ?_, ?_, ?_, ?_, ?_, ?_, ?_⟩ <;> omega

theorem bestRun_eq (ws : List Nat) (hl : ws.length = 8) : bestRun ws = zeroRun ws := by
  obtain ⟨n, hn, e⟩ := bits8_surj ws hl
  rw [← bestRun_zbit, ← zeroRun_zbit, e, bestRun_bits n hn]

theorem words16_eq (b : List UInt8) (h : b.length = 16) :
    ((List.range 8).map fun k => ((b.getD (2 * k) 0).toNat <<< 8) ||| (b.getD (2 * k + 1) 0).toNat) = words16 b := by
  have hw : ∀ x y : UInt8, (x.toNat <<< 8) ||| y.toNat = x.toNat * 256 + y.toNat := by
    intro x y
    rw [← Nat.shiftLeft_add_eq_or_of_lt (u8_lt y), Nat.shiftLeft_eq]
  match b, h with
  | [b0, b1, b2, b3, b4, b5, b6, b7, b8, b9, b10, b11, b12, b13, b14, b15], _ =>
    simp only [List.range, List.range.loop, List.map_cons, List.map_nil, hw, words16, be16]
    rfl

/-- `inet_pton` reads back what `fast_inet6_ntop` wrote. -/
theorem inet6_roundtrip (src : List UInt8) (size : Nat) (hs : 46 ≤ size) (hl : 16 ≤ src.length) :
    ∃ t, inet6Ntop src size = ok (some t) ∧ t.length ≤ 45 ∧ inetPton6 t = some (src.take 16) ∧ t = ip6Text (src.take 16) := by
  unfold inet6Ntop
  rw [if_neg (by omega), rdN_ok (by omega)]
  simp only [ok_bind, List.drop_zero]
  have hbl : (src.take 16).length = 16 := by simp; omega
  generalize src.take 16 = b at hbl ⊢
  obtain ⟨hWl, hW, hWb⟩ := words_eq b hbl
  generalize hWe : ((List.range 8).map fun k => ((b.getD (2 * k) 0).toNat <<< 8) ||| (b.getD (2 * k + 1) 0).toNat) = W at hWl hW hWb
  have hW16 : words16 b = W := by rw [← hWe, words16_eq b hbl]
  have hrun : zeroRun W = bestRun W := (bestRun_eq W hWl).symm
  have hip : ip6Text b = match bestRun W with
      | none => wordsText W
      | some (bb, l) =>
        if bb = 0 ∧ l = 6 then [58, 58] ++ dottedQuad (b.getD 12 0) (b.getD 13 0) (b.getD 14 0) (b.getD 15 0)
        else if bb = 0 ∧ l = 5 ∧ W.getD 5 0 = 0xffff then
          [58, 58] ++ hexWord 0xffff ++ [58] ++ dottedQuad (b.getD 12 0) (b.getD 13 0) (b.getD 14 0) (b.getD 15 0)
        else wordsText (W.take bb) ++ [58, 58] ++ wordsText (W.drop (bb + l)) := by
    simp only [ip6Text, hW16, hrun]
    rfl
  have fin : ∀ (best : Option (Nat × Nat)) (out : List UInt8), fmt6Loop b W best size 8 0 [] = ok (some out) → out.length ≤ 44 →
      inetPton6 (out ++ (if runAtEnd best then [58] else [])) = some b →
      out ++ (if runAtEnd best then [58] else []) = ip6Text b →
      ∃ t, (fmt6Loop b W best size 8 0 [] >>= fun o => match o with
        | none => ok none
        | some out => do
          let out ← if runAtEnd best then wr size out 58 else ok out
          let _ ← wr size out 0
          ok (some out)) = ok (some t) ∧ t.length ≤ 45 ∧ inetPton6 t = some b ∧ t = ip6Text b := by
    intro best out h1 h2 h3 h4
    refine ⟨_, ?_, ?_, h3, h4⟩
    · rw [h1, ok_bind]
      by_cases he : runAtEnd best = true
      · simp only [he, if_true]
        rw [wr_ok (by omega), ok_bind, wr_ok (by simp; omega), ok_bind]
      · simp only [he, if_false, Bool.false_eq_true, List.append_nil, ok_bind]
        rw [wr_ok (by omega), ok_bind]
    · split <;> simp <;> omega
  cases hbest : bestRun W with
  | none =>
    obtain ⟨e1, e2⟩ := fmt_pre b W none size (by omega) hW hWl 8 0 rfl (fun k _ => rfl) (fun k _ h => by simp at h)
    refine fin none (joinHex (W.take 8)) ?_ (by omega) ?_
      (by rw [hip, hbest, List.take_of_length_le (by omega), joinHex_text W hW]; simp [runAtEnd])
    · rw [e1]; rfl
    · rw [List.take_of_length_le (by omega)]
      cases W with
      | nil => simp at hWl
      | cons w ws =>
        simp only [runAtEnd, Bool.false_eq_true, if_false, List.append_nil]
        rw [scan_plain w ws hW (by simpa using hWl), hWb]
  | some r =>
    obtain ⟨bb, l⟩ := r
    obtain ⟨hz, hl2⟩ := bestRun_zrun W _ hbest
    simp only at hl2
    have hbl8 : bb + l ≤ 8 := by have := hz.1; simp only at this; omega
    by_cases h4 : (bb, l) = (0, 6) ∨ ((bb, l) = (0, 5) ∧ W.getD 5 0 = 0xffff)
    · -- embedded IPv4
      obtain ⟨x, y, u, v, hq⟩ : ∃ x y u v, b.drop 12 = [x, y, u, v] := by
        match hd : b.drop 12, (show (b.drop 12).length = 4 by simp; omega) with
        | [x, y, u, v], _ => exact ⟨x, y, u, v, rfl⟩
      have hquad : dottedQuad x y u v = dottedQuad (b.getD 12 0) (b.getD 13 0) (b.getD 14 0) (b.getD 15 0) := by
        have g : ∀ k, b.getD (12 + k) 0 = [x, y, u, v].getD k 0 := by
          intro k; rw [← hq]; simp
        rw [show b.getD 12 0 = x from g 0, show b.getD 13 0 = y from g 1, show b.getD 14 0 = u from g 2, show b.getD 15 0 = v from g 3]
      have hsplit := zrun_split hz
      have hql := dottedQuad_length x y u v
      rcases h4 with h4 | ⟨h4, h5⟩
      · simp only [Prod.mk.injEq] at h4
        obtain ⟨rfl, rfl⟩ := h4
        refine fin (some (0, 6)) (58 :: 58 :: dottedQuad x y u v) ?_ (by simp only [List.length_cons]; omega) ?_
          (by rw [hip, hbest, ← hquad]; simp [runAtEnd])
        · rw [show (8 : Nat) = (5 + 2) + 1 from rfl, fmt_base b W 0 6 size _ _ (by omega) (by simp only [List.length_nil]; omega),
            fmt_run b W 0 6 size 2 5 1 _ (by omega) (by omega)]
          simp only [fmt6Loop]
          rw [if_neg (by decide), if_pos (by omega), wr_ok (by simp; omega), ok_bind, if_pos (by simp), hq,
            inet4Ntop_eq _ _ (by simp; omega) x y u v [] rfl]
          simp
        · rw [if_neg (show ¬ runAtEnd (some (0, 6)) = true by decide), List.append_nil]
          simp only [inetPton6, if_true]
          rw [p6_dcolon, p6_quad x y u v [] _ (by simp)]
          have hb12 : b.take 12 = List.replicate 12 0 := by
            have h1 : b.take 12 = (W.take 6).flatMap wordBytes := by
              rw [← hWb]
              conv => lhs; rw [← List.take_append_drop 6 W, List.flatMap_append]
              rw [List.take_left' (by rw [flatMap_word_length]; simp [hWl])]
            have h2 : W.take 6 = List.replicate 6 0 := by
              have := congrArg (List.take 6) hsplit
              rw [this]; simp
            rw [h1, h2]; rfl
          rw [← List.take_append_drop 12 b, hq, hb12]
          simp [pton6Finish]
      · simp only [Prod.mk.injEq] at h4
        obtain ⟨rfl, rfl⟩ := h4
        have hff : hex16 0xffff = ascii "ffff" := by decide +kernel
        have hffl : (hex16 0xffff).length = 4 := by rw [hff]; rfl
        refine fin (some (0, 5)) (58 :: 58 :: (hex16 0xffff ++ 58 :: dottedQuad x y u v)) ?_
          (by simp only [List.length_cons, List.length_append]; omega) ?_
          (by rw [hip, hbest, ← hquad, ← hex16_hexWord (by omega)]; simp [runAtEnd, h5, ← List.getD_eq_getElem?_getD, -List.getD_eq_getElem?_getD])
        · rw [show (8 : Nat) = (4 + 3) + 1 from rfl, fmt_base b W 0 5 size _ _ (by omega) (by simp only [List.length_nil]; omega),
            fmt_run b W 0 5 size 3 4 1 _ (by omega) (by omega)]
          simp only [fmt6Loop]
          rw [if_neg (by decide), if_pos (by omega), wr_ok (by simp; omega), ok_bind, if_neg (by omega), h5, wrN_ok (by simp [hffl]; omega), ok_bind,
            if_neg (by decide), if_pos (by omega), wr_ok (by simp [hffl]; omega), ok_bind, if_pos (by simp), hq,
            inet4Ntop_eq _ _ (by simp [hffl]; omega) x y u v [] rfl]
          simp
        · rw [if_neg (show ¬ runAtEnd (some (0, 5)) = true by decide), List.append_nil]
          simp only [inetPton6, if_true]
          have hne : dottedQuad x y u v ≠ [] := by intro h; rw [h] at hql; simp at hql
          obtain ⟨xd, hx, e⟩ := p6_word (w := 0xffff) (by omega) (58 :: dottedQuad x y u v) [] (hex16 0xffff ++ 58 :: dottedQuad x y u v) (some 0)
          rw [p6_dcolon, List.length_nil, e, p6_colon hx hne (by simp), p6_quad x y u v _ _ (by simp [wordBytes_length])]
          have hb12 : b.take 12 = List.replicate 10 0 ++ wordBytes 0xffff := by
            have h1 : b.take 12 = (W.take 6).flatMap wordBytes := by
              rw [← hWb]
              conv => lhs; rw [← List.take_append_drop 6 W, List.flatMap_append]
              rw [List.take_left' (by rw [flatMap_word_length]; simp [hWl])]
            have h2 : W.take 6 = List.replicate 5 0 ++ [0xffff] := by
              have h3 : W.take 5 = List.replicate 5 0 := by
                have := congrArg (List.take 5) hsplit
                rw [this]; simp
              rw [List.take_succ, h3]
              rw [List.getD_eq_getElem?_getD, List.getElem?_eq_getElem (by omega), Option.getD_some] at h5
              rw [List.getElem?_eq_getElem (by omega), h5]; rfl
            rw [h1, h2]; rfl
          rw [← List.take_append_drop 12 b, hq, hb12]
          rfl
    · obtain ⟨out, e1, e2, e3⟩ := fmt_run_text b W bb l size hs hW hWl hbl8 hl2 h4
      refine fin _ out e1 (by omega) ?_ ?_
      · rw [e2, scan_run_text W bb l hW hWl hz hl2, hWb]
      · rw [e2, hip, hbest]
        simp only [Prod.mk.injEq] at h4
        have n1 : ¬ (bb = 0 ∧ l = 6) := fun h => h4 (Or.inl h)
        have n2 : ¬ (bb = 0 ∧ l = 5 ∧ W.getD 5 0 = 0xffff) := fun h => h4 (Or.inr ⟨⟨h.1, h.2.1⟩, h.2.2⟩)
        simp only [n1, n2, if_false]
        rw [joinHex_text _ fun x hx => hW x (List.mem_of_mem_take hx), joinHex_text _ fun x hx => hW x (List.mem_of_mem_drop hx)]
        simp

end Wdns
