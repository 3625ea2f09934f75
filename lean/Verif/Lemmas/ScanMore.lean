import Verif.Lemmas.ScanFields
import Verif.Props.RdataText

/-! Helper lemmas: the terminal fields and the A6 prefix read back what `wdns_rdata_to_str` writes for them. -/

namespace Wdns
open Outcome Spec

theorem scan_bytes (f u : List UInt8) : sField .bytes (hexText true f) u = ok (.go (some []) (u ++ f)) := by
  simp only [sField, sBytes_hex]

theorem scan_b64 (f u : List UInt8) : ∃ p, sField .bytesB64 (base64 f) u = ok (.go p (u ++ f)) := by
  refine ⟨some ((base64 f).drop f.length), ?_⟩
  simp only [sField, (C51_base64_round_trip f).2.2.2, ok_bind]

theorem scan_bytesStr {f : List UInt8} (hf : f ≠ []) (u : List UInt8) :
    sField .bytesStr (quoted f) u = ok (.go (some []) (u ++ f)) := by
  have hq := fromStr_quoted f [] u
  rw [List.append_nil] at hq
  have hl : 3 ≤ (quoted f).length := by
    cases f with
    | nil => exact absurd rfl hf
    | cons c f =>
      have : 1 ≤ (charText c).length := by unfold charText; split <;> (try split) <;> simp
      unfold quoted
      simp only [List.flatMap_cons, List.length_append, List.length_singleton]
      omega
  have h1 : (quoted f).head? = some 34 := by unfold quoted; simp
  have h2 : (quoted f).getLast? = some 34 := by unfold quoted; rw [List.getLast?_append]; rfl
  simp only [sField, h1, h2, hq]
  rw [if_pos ⟨hl, trivial, trivial⟩, if_neg (by omega)]

/-! ## A6 -/

theorem pton4_dot (s : List UInt8) : ∀ (done : List UInt8) (cur : Nat) (saw : Bool), s.getLast? = some 46 → pton4Loop s done cur saw = none := by
  induction s with
  | nil => intro _ _ _ h; simp at h
  | cons c cs ih =>
    intro done cur saw h
    cases cs with
    | nil =>
      simp at h; subst h
      unfold pton4Loop
      rw [if_neg (by decide)]
      split
      · split
        · rfl
        · simp [pton4Loop]
      · rfl
    | cons d ds =>
      have h' : (d :: ds).getLast? = some 46 := by rw [← h]; rfl
      unfold pton4Loop
      split
      · simp only
        split
        · rfl
        · split
          · rfl
          · split
            · rfl
            · exact ih _ _ _ h'
      · split
        · split
          · rfl
          · exact ih _ _ _ h'
        · rfl

theorem pton6_dot (s : List UInt8) : ∀ (tp : List UInt8) (cp : Option Nat) (tok : List UInt8) (xd val : Nat), s.getLast? = some 46 →
    tok.getLast? = some 46 → pton6Loop s tp cp tok xd val = none := by
  induction s with
  | nil => intro _ _ _ _ _ h; simp at h
  | cons c cs ih =>
    intro tp cp tok xd val h ht
    have h4 : inetPton4 tok = none := pton4_dot tok _ _ _ ht
    have hcs : c ≠ 46 → cs.getLast? = some 46 := by
      intro hc
      cases cs with
      | nil => simp at h; exact absurd h hc
      | cons d ds => rw [← h]; rfl
    unfold pton6Loop
    split
    · rename_i d hd
      have hc : c ≠ 46 := by rintro rfl; simp [hexDigitValue] at hd
      split
      · rfl
      · split
        · rfl
        · exact ih _ _ _ _ _ (hcs hc) ht
    · by_cases h58 : c = 58
      · have hl := hcs (by rw [h58]; decide)
        rw [if_pos h58]
        split
        · split
          · rfl
          · exact ih _ _ _ _ _ hl hl
        · split
          · rfl
          · split
            · rfl
            · exact ih _ _ _ _ _ hl hl
      · rw [if_neg h58]
        split
        · rw [h4]
        · rfl

theorem inetPton6_dot {s : List UInt8} (h : s.getLast? = some 46) : inetPton6 s = none := by
  unfold inetPton6
  split
  · rfl
  · rename_i c cs
    split
    · rename_i hc
      have hcs : cs.getLast? = some 46 := by
        cases cs with
        | nil => simp at h; rw [h] at hc; exact absurd hc (by decide)
        | cons d ds => rw [← h]; rfl
      split
      · exact pton6_dot _ _ _ _ _ _ hcs hcs
      · rfl
    · exact pton6_dot _ _ _ _ _ _ h h

theorem nameText_last (n : Name) : (nameText n).getLast? = some 46 := by
  cases n with
  | nil => decide
  | cons l n =>
    unfold nameText
    rw [if_neg (by simp)]
    generalize hs : (l :: n) = m
    have hm : m ≠ [] := by rw [← hs]; simp
    rw [← List.dropLast_append_getLast hm, List.flatMap_append]
    simp

/-- What is left of the text when the tokens `toks` are still to be read. -/
def Left (rest : List UInt8) (toks : List (List UInt8)) : Prop := rest = tails toks ∨ rest = spaced toks

/-- What an A6 prefix needs so that its text can be read: nothing after a full address, a name after a full prefix. -/
theorem scan_prefix {pl : UInt8} {s : List UInt8} {toks : List (List UInt8)} (h1 : pl.toNat ≤ 128) (h2 : s.length = (128 - pl.toNat + 7) / 8)
    (h0 : pl = 0 → toks = []) (hn : pl = 128 → ∃ n ts, toks = nameText n :: ts) (u : List UInt8) :
    ∃ p rest, sField .ipv6prefix (spaced ((decText pl.toNat :: (if s = [] then [] else [ip6Text (List.replicate (16 - s.length) 0 ++ s)])) ++ toks)) u =
      ok (.go p (u ++ pl :: s)) ∧ At p rest ∧ Left rest toks := by
  have hg := graphic_decText pl.toNat
  have hsp : isSpace 32 = true := rfl
  -- the part common to all cases
  have start : ∀ toks' : List (List UInt8), sPrefix (spaced (decText pl.toNat :: toks')) u =
      sPrefixAddr pl.toNat ((tails toks').dropWhile isSpace) (u ++ [pl]) := by
    intro toks'
    have hs := sep_tails toks'
    rw [spaced_tails]
    unfold sPrefix
    rw [tokOf_app hg hs, if_pos (decText_digits _), scanfU_dec 8 hs (by have := u8_lt pl; omega), afterTok_app hg hs]
    simp only
    rw [Nat.mod_eq_of_lt (u8_lt pl), if_neg (by omega), u8_ofNat_toNat]
  simp only [sField, List.cons_append]
  rw [start]
  unfold sPrefixAddr
  by_cases hs0 : s = []
  · -- a prefix of 128 bits
    have hp : pl.toNat = 128 := by
      subst hs0
      simp at h2
      omega
    have hp' : pl = 128 := UInt8.toNat.inj hp
    obtain ⟨n, ts, rfl⟩ := hn hp'
    have hng := graphic_nameText n
    have hne := nameText_ne_nil n
    have e : (tails (nameText n :: ts)).dropWhile isSpace = nameText n ++ tails ts := by
      show (32 :: (nameText n) ++ tails ts).dropWhile isSpace = _
      rw [List.cons_append, List.dropWhile_cons, if_pos hsp, dropSpace_graphic hng hne]
    simp only [if_pos hs0, List.nil_append, e]
    rw [if_neg (by simp [hne]), tokOf_app hng (sep_tails ts), inetPton6_dot (nameText_last n)]
    simp only
    rw [if_neg (by omega), hs0]
    exact ⟨_, _, rfl, At.some, Or.inr (spaced_tails _ _).symm⟩
  · simp only [if_neg hs0, List.cons_append, List.nil_append]
    generalize ha : List.replicate (16 - s.length) 0 ++ s = a
    have hal : a.length = 16 := by rw [← ha]; simp; omega
    have hag := graphic_ip6Text a
    have hane : ip6Text a ≠ [] := by
      intro e
      have := pton6_ip6Text hal
      rw [e] at this
      simp [inetPton6] at this
    have e : (tails (ip6Text a :: toks)).dropWhile isSpace = ip6Text a ++ tails toks := by
      show (32 :: (ip6Text a) ++ tails toks).dropWhile isSpace = _
      rw [List.cons_append, List.dropWhile_cons, if_pos hsp, dropSpace_graphic hag hane]
    rw [e, if_neg (by simp [hane]), tokOf_app hag (sep_tails toks), pton6_ip6Text hal]
    simp only
    have ho : (128 - pl.toNat) / 8 + (if pl.toNat % 8 ≠ 0 then 1 else 0) = s.length := by
      rw [h2]; split <;> omega
    have hd : a.drop (16 - s.length) = s := by
      rw [← ha, List.drop_left' (by simp)]
    rw [ho, hd]
    by_cases hz : pl.toNat = 0
    · have := h0 (UInt8.toNat.inj hz)
      subst this
      simp only [tails, List.flatMap_nil, List.append_nil]
      rw [endPtr_nil hag, if_neg (by simp)]
      exact ⟨none, [], by simp, At.none, Or.inl rfl⟩
    · rw [if_neg (by omega)]
      exact ⟨_, _, by simp, endPtr_app hag (sep_tails toks), Or.inl rfl⟩

end Wdns
