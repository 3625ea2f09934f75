import Verif.Spec.ScanGrammar
import Verif.Lemmas.StringGrammar
import Verif.Lemmas.AddrGrammar
import Verif.Lemmas.DecodeGrammar
import Verif.Lemmas.NumGrammar
import Verif.Lemmas.ScanSvc
import Verif.Lemmas.ScanBad
import Verif.Props.NameGrammar

/-! Each field of the scanner reads exactly the texts of `Spec/ScanGrammar`. -/

namespace Wdns
open Outcome Spec

theorem word_iff (s tok rest : List UInt8) : Word s tok rest ↔ tok = tokOf s ∧ rest = afterTok s := by
  unfold Word
  constructor
  · rintro ⟨rfl, h1, h2⟩
    have h1' : ∀ c ∈ tok, (fun c => !isDelim c) c = true := by
      intro c hc
      have := h1 c hc
      rw [← isDelim_iff] at this
      simpa using this
    have h2' : ∀ c, rest.head? = some c → (fun c => !isDelim c) c = false := by
      intro c hc
      have := h2 c hc
      rw [← isDelim_iff] at this
      simpa using this
    exact ⟨(takeWhile_app h1' h2').symm, (dropWhile_app h1' h2').symm⟩
  · rintro ⟨rfl, rfl⟩
    refine ⟨List.takeWhile_append_dropWhile.symm, ?_, ?_⟩
    · intro c hc
      rw [← isDelim_iff]
      have : ∀ l : List UInt8, c ∈ l.takeWhile (fun c => !isDelim c) → isDelim c = false := by
        intro l
        induction l with
        | nil => simp
        | cons d l ih =>
          rw [List.takeWhile_cons]
          split
          · rename_i hd
            intro hm
            rcases List.mem_cons.mp hm with rfl | hm
            · simpa using hd
            · exact ih hm
          · simp
      simpa using this s hc
    · intro c hc
      rw [← isDelim_iff]
      have : ∀ l : List UInt8, (l.dropWhile (fun c => !isDelim c)).head? = some c → isDelim c = true := by
        intro l
        induction l with
        | nil => simp
        | cons d l ih =>
          rw [List.dropWhile_cons]
          split
          · exact ih
          · rename_i hd
            intro hm
            simp only [List.head?_cons, Option.some.injEq] at hm
            subst hm
            simpa using hd
      exact this s hc

theorem at_iff {p : Option (List UInt8)} {rest : List UInt8} : At p rest ↔ p = some rest ∨ (p = none ∧ rest = []) := Iff.rfl

theorem at_some {s rest : List UInt8} : At (some s) rest ↔ rest = s := by
  unfold At; simp [eq_comm]

theorem at_none {rest : List UInt8} : At none rest ↔ rest = [] := by
  unfold At; simp

theorem at_endPtr {s rest : List UInt8} : At (endPtr s) rest ↔ rest = afterTok s := by
  unfold endPtr
  split
  · rename_i h; rw [at_none, h]
  · rw [at_some]

/-! ## Hexadecimal -/

theorem scanfHex2_iff (s : List UInt8) (b : UInt8) : scanfHex2 s = .val b ↔ HexAt s b := by
  constructor
  · induction s with
    | nil => simp [scanfHex2]
    | cons c cs ih =>
      by_cases hc : isSpace c = true
      · intro h
        refine .blank ((isSpace_iff c).mp hc) (ih ?_)
        unfold scanfHex2 at h ⊢
        rwa [List.dropWhile_cons, if_pos hc] at h
      · intro h
        unfold scanfHex2 at h
        rw [List.dropWhile_cons, if_neg hc] at h
        simp only at h
        by_cases hs : c = 45 ∨ c = 43
        · rw [if_pos hs] at h
          cases cs with
          | nil => simp at h
          | cons d ds =>
            simp only [List.head?_cons, Option.bind_some] at h
            cases hd : hexDigitValue d with
            | none => simp [hd] at h
            | some v =>
              simp only [hd, Scan.val.injEq] at h
              rcases hs with rfl | rfl
              · rw [if_pos rfl] at h; subst h; exact .minus hd
              · rw [if_neg (by decide)] at h; subst h; exact .plus hd
        · rw [if_neg hs] at h
          cases hv : hexDigitValue c with
          | none => simp [hv] at h
          | some v =>
            simp only [hv] at h
            cases hd : cs.head?.bind hexDigitValue with
            | none =>
              simp only [hd, Scan.val.injEq] at h
              subst h
              refine .one hv fun d hd' => ?_
              rw [hd'] at hd
              exact hd
            | some w =>
              simp only [hd, Scan.val.injEq] at h
              subst h
              cases cs with
              | nil => simp at hd
              | cons d ds => exact .two hv hd
  · intro h
    have hex : ∀ c x, hexVal c = some x → isSpace c = false ∧ ¬ (c = 45 ∨ c = 43) := by
      intro c x hx
      refine ⟨?_, ?_⟩
      · cases hs : isSpace c with
        | false => rfl
        | true =>
          rw [isSpace_iff] at hs
          unfold IsBlank at hs
          unfold hexVal at hx
          rw [if_neg (by omega), if_neg (by omega), if_neg (by omega)] at hx
          cases hx
      · rintro (rfl | rfl) <;> revert hx <;> decide +revert
    induction h with
    | @blank c s b hc _ ih =>
      unfold scanfHex2 at ih ⊢
      rw [List.dropWhile_cons, if_pos ((isSpace_iff c).mpr hc)]
      exact ih
    | @two c d s x y hx hy =>
      obtain ⟨h1, h2⟩ := hex c x hx
      unfold scanfHex2
      rw [List.dropWhile_cons, if_neg (by simp [h1])]
      simp only
      rw [if_neg h2, hexDigitValue_eq, hx]
      simp only [List.head?_cons, Option.bind_some, hexDigitValue_eq, hy]
    | @one c s x hx hs =>
      obtain ⟨h1, h2⟩ := hex c x hx
      unfold scanfHex2
      rw [List.dropWhile_cons, if_neg (by simp [h1])]
      simp only
      rw [if_neg h2, hexDigitValue_eq, hx]
      have : s.head?.bind hexDigitValue = none := by
        cases s with
        | nil => rfl
        | cons d s => exact hs d rfl
      simp only [this]
    | @plus c s x hx =>
      unfold scanfHex2
      rw [List.dropWhile_cons, if_neg (by decide)]
      simp only [List.head?_cons, Option.bind_some, hexDigitValue_eq, hx]
      rfl
    | @minus c s x hx =>
      unfold scanfHex2
      rw [List.dropWhile_cons, if_neg (by decide)]
      simp only [List.head?_cons, Option.bind_some, hexDigitValue_eq, hx]
      rfl

theorem sBytes_iff (s u : List UInt8) (p : Option (List UInt8)) (u' : List UInt8) :
    sBytes s u = ok (.go p u') ↔ p = some [] ∧ ∃ w, HexPairs s w [] ∧ u' = u ++ w := by
  fun_induction sBytes s u with
  | case1 u =>
    constructor
    · intro h
      simp only [ok.injEq, FRes.go.injEq] at h
      exact ⟨h.1.symm, [], .nil, by simp [h.2]⟩
    · rintro ⟨rfl, w, h, rfl⟩
      cases h; simp
  | case2 c u =>
    constructor
    · intro h; simp at h
    · rintro ⟨rfl, w, h, rfl⟩; cases h
  | case3 u c d s h1 =>
    constructor
    · intro h; cases h
    · rintro ⟨rfl, w, h, rfl⟩
      cases h with
      | cons h2 _ => rw [← scanfHex2_iff, h1] at h2; cases h2
  | case4 u c d s h1 =>
    constructor
    · intro h; simp at h
    · rintro ⟨rfl, w, h, rfl⟩
      cases h with
      | cons h2 _ => rw [← scanfHex2_iff, h1] at h2; cases h2
  | case5 u c d s b h1 ih =>
    rw [ih]
    constructor
    · rintro ⟨rfl, w, h, rfl⟩
      exact ⟨rfl, b :: w, .cons ((scanfHex2_iff _ _).mp h1) h, by simp⟩
    · rintro ⟨rfl, w, h, rfl⟩
      cases h with
      | cons h2 h3 =>
        rw [← scanfHex2_iff, h1] at h2
        cases h2
        exact ⟨rfl, _, h3, by simp⟩

theorem sSalt_iff (n : Nat) (s u : List UInt8) (p : Option (List UInt8)) (u' : List UInt8) (hl : 2 * n ≤ s.length) :
    sSalt n s u = ok (.go p u') ↔ ∃ w rest, w.length = n ∧ HexPairs s w rest ∧ p = some rest ∧ u' = u ++ w := by
  induction n generalizing s u with
  | zero =>
    unfold sSalt
    constructor
    · intro h
      simp only [ok.injEq, FRes.go.injEq] at h
      exact ⟨[], s, rfl, .nil, h.1.symm, by simp [h.2]⟩
    · rintro ⟨w, rest, hw, h, rfl, rfl⟩
      obtain rfl := List.length_eq_zero_iff.mp hw
      cases h; simp
  | succ n ih =>
    match s, hl with
    | c :: d :: s, hl =>
      rw [sSalt]
      constructor
      · intro h
        split at h
        · cases h
        · simp at h
        · rename_i b hb
          rw [show (c :: d :: s).drop 2 = s from rfl, ih _ _ (by simp at hl; omega)] at h
          obtain ⟨w, rest, h1, h2, h3, h4⟩ := h
          exact ⟨b :: w, rest, by simp [h1], .cons ((scanfHex2_iff _ _).mp hb) h2, h3, by simp [h4]⟩
      · rintro ⟨w, rest, hw, h, rfl, rfl⟩
        cases h with
        | nil => simp at hw
        | @cons _ _ _ b w _ h2 h3 =>
          rw [← scanfHex2_iff] at h2
          rw [h2]
          simp only
          rw [show (c :: d :: s).drop 2 = s from rfl, ih _ _ (by simp at hl; omega)]
          exact ⟨w, rest, by simpa using hw, h3, rfl, by simp⟩

theorem euiScan_iff (n : Nat) (s r : List UInt8) (hl : s.length = 3 * n + 2) :
    euiScan (n + 1) s = some r ↔ EuiReads s r ∧ r.length = n + 1 := by
  induction n generalizing s r with
  | zero =>
    match s, hl with
    | [a, b], _ =>
      simp only [euiScan]
      constructor
      · intro h
        split at h
        · rename_i x y hx hy
          simp only [if_true, Option.some.injEq] at h
          subst h
          exact ⟨.one hx hy, rfl⟩
        · cases h
      · rintro ⟨h, -⟩
        cases h with
        | one hx hy =>
          rw [← hexDigitValue_eq] at hx hy
          simp [hx, hy]
  | succ n ih =>
    match s, hl with
    | a :: b :: c :: s, hl =>
      rw [euiScan]
      constructor
      · intro h
        split at h
        · rename_i x y hx hy
          rw [if_neg (by omega)] at h
          split at h
          · rename_i hc
            simp only [List.head?_cons, Option.some.injEq] at hc
            subst hc
            simp only [List.drop_succ_cons, List.drop_zero, Option.map_eq_some_iff] at h
            obtain ⟨w, hw, rfl⟩ := h
            rw [ih _ _ (by simp at hl; omega)] at hw
            exact ⟨.cons hx hy hw.1, by simp [hw.2]⟩
          · cases h
        · cases h
      · rintro ⟨h, hr⟩
        cases h with
        | cons hx hy h =>
          rw [← hexDigitValue_eq] at hx hy
          rw [hx, hy]
          simp only
          rw [if_neg (by omega), if_pos (show (45 :: _ : List UInt8).head? = some 45 from rfl)]
          have := (ih _ _ (by simp at hl; omega)).mpr ⟨h, by simpa using hr⟩
          simp only [List.drop_succ_cons, List.drop_zero, this]
          rfl

theorem euiReads_length {s r : List UInt8} (h : EuiReads s r) : s.length + 1 = 3 * r.length := by
  induction h with
  | one => rfl
  | cons _ _ _ ih => simp; omega

theorem sEui_iff (n : Nat) (s u : List UInt8) (p : Option (List UInt8)) (u' : List UInt8) :
    sEui (n + 1) s u = ok (.go p u') ↔ ∃ w, EuiReads s w ∧ w.length = n + 1 ∧ p = some [] ∧ u' = u ++ w := by
  unfold sEui
  by_cases hl : s.length = 3 * n + 2
  · rw [if_neg (by omega)]
    constructor
    · intro h
      split at h
      · simp at h
      · rename_i w hw
        rw [euiScan_iff n s w hl] at hw
        simp only [ok.injEq, FRes.go.injEq] at h
        exact ⟨w, hw.1, hw.2, h.1.symm, h.2.symm⟩
    · rintro ⟨w, h1, h2, rfl, rfl⟩
      rw [(euiScan_iff n s w hl).mpr ⟨h1, h2⟩]
  · rw [if_pos (by omega)]
    constructor
    · intro h; simp at h
    · rintro ⟨w, h1, h2, rfl, rfl⟩
      have := euiReads_length h1
      omega

/-! ## Numbers -/

theorem scanfU_num {bits : Nat} {t r : List UInt8} (ht : t ≠ []) (hd : ∀ c ∈ t, IsDigit c) (hr : ∀ c, r.head? = some c → IsBlank c) :
    scanfU bits (t ++ r) = .val (min (decVal t) (2 ^ 64 - 1) % 2 ^ bits) := by
  have hgen : ∀ t r acc seen, (∀ c ∈ t, IsDigit c) → (∀ c, r.head? = some c → IsBlank c) → (t ≠ [] ∨ seen = true) →
      scanDigits acc seen (t ++ r) = some (t.foldl (fun v b => 10 * v + digitVal b) acc, r) := by
    intro t r
    induction t with
    | nil =>
      intro acc seen _ hr hs
      rcases hs with hs | rfl
      · contradiction
      · cases r with
        | nil => rfl
        | cons c r =>
          have := hr c rfl
          unfold IsBlank at this
          rw [List.nil_append, scanDigits, if_neg (by omega), if_pos rfl]
          rfl
    | cons c t ih =>
      intro acc seen hc hr _
      have hc0 := hc c (by simp)
      unfold IsDigit at hc0
      rw [List.cons_append, scanDigits, if_pos (by omega), ih _ _ (fun c h => hc c (by simp [h])) hr (Or.inr rfl)]
      rw [List.foldl_cons, Nat.mul_comm]
      rfl
  have hg := hgen t r 0 false hd hr (Or.inl ht)
  cases t with
  | nil => contradiction
  | cons c cs =>
    obtain ⟨hn0, hn1, hn2⟩ := digit_not_blank (hd c (by simp))
    have hsp : isSpace c = false := by
      rw [← isSpace_iff] at hn0
      simpa using hn0
    have hdw : (c :: cs ++ r).dropWhile isSpace = c :: cs ++ r := by
      rw [List.cons_append, List.dropWhile_cons, if_neg (by simp [hsp])]
    have key : scanInt (c :: cs ++ r) = some (false, decVal (c :: cs), r) := by
      unfold scanInt
      rw [hdw]
      rw [List.cons_append] at hg ⊢
      simp only
      rw [if_neg hn1, if_neg hn2, hg]
      rfl
    unfold scanfU
    rw [hdw, if_neg (by simp), key]
    simp only
    congr 1
    split
    · rw [Nat.min_eq_right (by omega)]
    · rw [if_neg (by simp), Nat.min_eq_left (by omega)]

theorem scanfU_tok {bits : Nat} {s : List UInt8} (h : s ≠ []) (hs : ∀ c, s.head? = some c → ¬ IsBlank c)
    (hd : ∀ c ∈ tokOf s, IsDigit c) : scanfU bits s = .val (min (decVal (tokOf s)) (2 ^ 64 - 1) % 2 ^ bits) := by
  have ht : tokOf s ≠ [] := by
    refine tok_ne_nil h fun c hc => ?_
    have := hs c hc
    rw [← isSpace_iff] at this
    simpa using this
  obtain ⟨e, h1, h2⟩ := (word_iff s _ _).mpr ⟨rfl, rfl⟩
  have := scanfU_num (bits := bits) ht hd (r := afterTok s) (by
    intro c hc
    have := h2 c hc
    unfold Separator at this
    rcases this with rfl | rfl | rfl | rfl <;> decide)
  rwa [← e] at this

theorem all_digit {t : List UInt8} : t.all isDigit = true ↔ ∀ c ∈ t, IsDigit c := by
  rw [List.all_eq_true]
  constructor
  · intro h c hc; exact (isDigit_iff c).mp (h c hc)
  · intro h c hc; exact (isDigit_iff c).mpr (h c hc)

theorem sInt_iff {k : Nat} {s : List UInt8} (h : s ≠ []) (hs : ∀ c, s.head? = some c → ¬ IsBlank c) (hk : k ≤ 7) (u : List UInt8)
    (p : Option (List UInt8)) (u' : List UInt8) :
    sInt k s u = ok (.go p u') ↔
      (∀ c ∈ tokOf s, IsDigit c) ∧ decVal (tokOf s) < 256 ^ k ∧ p = some (afterTok s) ∧ u' = u ++ bigEndian k (decVal (tokOf s)) := by
  unfold sInt
  by_cases hd : (tokOf s).all isDigit = true
  · rw [if_pos hd]
    rw [all_digit] at hd
    rw [scanfU_tok h hs hd]
    simp only
    have hp : 256 ^ k ≤ 2 ^ 56 := by
      calc 256 ^ k ≤ 256 ^ 7 := Nat.pow_le_pow_right (by omega) hk
        _ = 2 ^ 56 := by decide
    by_cases hv : decVal (tokOf s) < 256 ^ k
    · have e : min (decVal (tokOf s)) (2 ^ 64 - 1) % 2 ^ 64 = decVal (tokOf s) := by
        rw [Nat.min_eq_left (by omega), Nat.mod_eq_of_lt (by omega)]
      rw [e, if_neg (by omega)]
      constructor
      · intro h
        simp only [ok.injEq, FRes.go.injEq] at h
        exact ⟨hd, hv, h.1.symm, h.2.symm⟩
      · rintro ⟨-, -, rfl, rfl⟩; rfl
    · rw [if_pos]
      · constructor
        · intro h; simp at h
        · rintro ⟨-, h, -⟩; exact absurd h hv
      · have : min (decVal (tokOf s)) (2 ^ 64 - 1) % 2 ^ 64 = min (decVal (tokOf s)) (2 ^ 64 - 1) := Nat.mod_eq_of_lt (by omega)
        rw [this]
        show 256 ^ k ≤ _
        rw [Nat.le_min]
        omega
  · rw [if_neg hd]
    constructor
    · intro h; simp at h
    · rintro ⟨h, -⟩; exact absurd (all_digit.mpr h) hd

/-! ## Type lists -/

theorem typeReads_lt {tok : List UInt8} {t : Nat} (h : TypeReads tok t) : t < 65536 := by
  rcases h with ⟨m, hm, -⟩ | ⟨-, h, -⟩
  · have := (rrtype_table _ (switchOf_mem hm)).2
    simp only at this
    omega
  · omega

theorem typeReads_type0 {tok : List UInt8} (h : tok.map lower = ascii "type0") (hn : ∀ u, ¬ TypeReads tok u) : TypeReads tok 0 := by
  right
  refine ⟨fun u m hm he => hn u (Or.inl ⟨m, hm, he⟩), by omega, tok.take 4, tok.drop 4, false, (List.take_append_drop 4 tok).symm, ?_, ?_,
    by simp⟩
  · rw [List.map_take, h]; rfl
  · have hd : (tok.drop 4).map lower = [48] := by rw [List.map_drop, h]; rfl
    obtain ⟨c, hc⟩ : ∃ c, tok.drop 4 = [c] := by
      refine List.length_eq_one_iff.mp ?_
      have := congrArg List.length hd
      rwa [List.length_map] at this
    rw [hc] at hd ⊢
    simp only [List.map_cons, List.map_nil, List.cons.injEq, and_true] at hd
    have : c = 48 := by
      have h := (by decide +kernel : ∀ n < 256, lower (UInt8.ofNat n) = 48 → UInt8.ofNat n = 48) c.toNat (u8_lt c)
      rw [u8_ofNat_toNat] at h
      exact h hd
    subst this
    exact ⟨[], [], [48], rfl, by simp, by simp, by decide, by decide, Or.inl ⟨rfl, Or.inl rfl⟩⟩

theorem typesRead_sound : ∀ (fuel : Nat) (p : Option (List UInt8)) (ts : List Nat), sTypes fuel p = ok (some ts) →
    TypesRead (p.getD []) ts
  | 0, _, _, h => by simp [sTypes] at h
  | _ + 1, none, ts, h => by
    simp only [sTypes, ok.injEq, Option.some.injEq] at h
    subst h; exact .nil
  | _ + 1, some [], ts, h => by
    simp only [sTypes, ok.injEq, Option.some.injEq] at h
    subst h; exact .nil
  | fuel + 1, some (c :: cs), ts, h => by
    simp only [sTypes] at h
    by_cases hc : isSpace c = true
    · rw [if_pos hc] at h
      exact .blank ((isSpace_iff c).mp hc) (typesRead_sound fuel _ _ h)
    · rw [if_neg hc, bind_eq_ok] at h
      obtain ⟨t, ht, h⟩ := h
      split at h
      · simp at h
      · rename_i hz
        rw [bind_eq_ok] at h
        obtain ⟨r, hr, h⟩ := h
        simp only [ok.injEq, Option.map_eq_some_iff] at h
        obtain ⟨ts', rfl, rfl⟩ := h
        have ih := typesRead_sound fuel _ _ hr
        have hg : (endPtr (c :: cs)).getD [] = afterTok (c :: cs) := by
          unfold endPtr
          split
          · rename_i h; simp [h]
          · rfl
        rw [hg] at ih
        have hz' : t = 0 → (tokOf (c :: cs)).map lower = ascii "type0" := by
          intro h0
          by_contra hne
          refine hz ⟨h0, fun he => hne ?_⟩
          rw [casecmp_eq] at he
          rw [he]; rfl
        have htr : TypeReads (tokOf (c :: cs)) t := by
          rcases (strToRrtype_iff _ _).mp ht with h | ⟨rfl, h⟩
          · exact h
          · exact typeReads_type0 (hz' rfl) h
        show TypesRead (c :: cs) _
        refine .cons (tok := tokOf (c :: cs)) (rest := afterTok (c :: cs)) ?_ ?_ ((word_iff _ _ _).mpr ⟨rfl, rfl⟩) htr hz' ih
        · intro d hd
          simp only [List.head?_cons, Option.some.injEq] at hd
          subst hd
          rwa [← isSpace_iff]
        · refine tok_ne_nil (by simp) ?_
          intro d hd
          simp only [List.head?_cons, Option.some.injEq] at hd
          subst hd
          simpa using hc

theorem typesRead_complete {s : List UInt8} {ts : List Nat} (h : TypesRead s ts) : ∀ (fuel : Nat) (p : Option (List UInt8)), At p s →
    s.length + 1 < fuel → sTypes fuel p = ok (some ts) := by
  induction h with
  | nil =>
    intro fuel p hp hf
    match fuel, hf with
    | fuel + 1, _ =>
      rcases hp with rfl | ⟨rfl, -⟩ <;> simp [sTypes]
  | @blank c s ts hc _ ih =>
    intro fuel p hp hf
    match fuel, hf with
    | fuel + 1, hf =>
      rcases hp with rfl | ⟨-, h⟩
      · simp only [sTypes]
        rw [if_pos ((isSpace_iff c).mpr hc)]
        exact ih fuel _ (Or.inl rfl) (by simp at hf; omega)
      · cases h
  | @cons s tok rest t ts hb hne hw ht h0 _ ih =>
    intro fuel p hp hf
    obtain ⟨rfl, rfl⟩ := (word_iff _ _ _).mp hw
    cases s with
    | nil => exact absurd rfl hne
    | cons c cs =>
      match fuel, hf with
      | fuel + 1, hf =>
        rcases hp with rfl | ⟨-, h⟩
        · simp only [sTypes]
          have hc : isSpace c = false := by
            have := hb c rfl
            rw [← isSpace_iff] at this
            simpa using this
          have hlen := tok_length (c :: cs)
          have hlt : 0 < (tokOf (c :: cs)).length := List.length_pos_iff.mpr hne
          rw [if_neg (by simp [hc]), (strToRrtype_iff _ _).mpr (Or.inl ht), ok_bind, if_neg, ih fuel _ (at_endPtr.mpr rfl)]
          · rfl
          · rw [afterTok_eq, List.length_drop]; omega
          · rintro ⟨hz, hne⟩
            refine hne ?_
            rw [casecmp_eq, h0 hz]; rfl
        · cases h

theorem sBitmap_iff (s u : List UInt8) (p : Option (List UInt8)) (u' : List UInt8) :
    sBitmap s u = ok (.go p u') ↔ ∃ ts f, TypesRead s ts ∧ CanonBitmap f (· ∈ ts) ∧ p = none ∧ u' = u ++ f := by
  have hlt : ∀ {s ts}, TypesRead s ts → ∀ t ∈ ts, t < 65536 := by
    intro s ts h
    induction h with
    | nil => simp
    | blank _ _ ih => exact ih
    | cons _ _ _ ht _ _ ih =>
      intro x hx
      rcases List.mem_cons.mp hx with rfl | hx
      · exact typeReads_lt ht
      · exact ih x hx
  unfold sBitmap
  rw [bind_eq_ok]
  constructor
  · rintro ⟨r, hr, h⟩
    cases r with
    | none => simp at h
    | some ts =>
      have := typesRead_sound _ _ _ hr
      obtain ⟨f, hf, hc⟩ := bmLoop_canon ts (hlt this) u
      simp only [ok.injEq, FRes.go.injEq] at h
      exact ⟨ts, f, this, hc, h.1.symm, by rw [← h.2, hf]⟩
  · rintro ⟨ts, f, h, hc, rfl, rfl⟩
    refine ⟨_, typesRead_complete h _ _ (Or.inl rfl) (by omega), ?_⟩
    obtain ⟨f', hf, hc'⟩ := bmLoop_canon ts (hlt h) u
    simp only [hf]
    rw [canonBitmap_unique hc' hc fun _ => Iff.rfl]

/-! ## Service parameters -/

theorem strtok_pieces (c : UInt8) (v : List UInt8) (cur : List UInt8) :
    strtok (· = c) v cur = ((v.splitOn c).modifyHead (cur ++ ·)).filter (· ≠ []) := by
  rw [List.splitOn_eq_splitOnP]
  induction v generalizing cur with
  | nil =>
    simp only [strtok, List.splitOnP_nil, List.modifyHead_cons, List.append_nil]
    by_cases h : cur = [] <;> simp [h]
  | cons d v ih =>
    rw [List.splitOnP_cons_eq_if_modifyHead, strtok]
    by_cases hd : d = c
    · subst hd
      have h0 := ih []
      have e : ∀ l : List (List UInt8), l.modifyHead ([] ++ ·) = l := by intro l; cases l <;> rfl
      rw [e] at h0
      simp only [decide_true, if_true, beq_self_eq_true, List.modifyHead_cons, List.append_nil, h0]
      by_cases h : cur = [] <;> simp [h]
    · have hd' : (d == c) = false := by simpa using hd
      simp only [hd, decide_false, Bool.false_eq_true, if_false, hd', ih]
      congr 1
      cases v.splitOnP (· == c) <;> simp

theorem strtok_eq_pieces (c : UInt8) (v : List UInt8) : strtok (· = c) v [] = pieces c v := by
  rw [strtok_pieces, pieces]
  congr 1
  cases v.splitOn c <;> rfl

theorem keyReads_ne {tok : List UInt8} {k : Nat} (h : KeyReads tok k) : k ≠ 65535 := by
  rcases h with ⟨h, -⟩ | ⟨-, h, -⟩ <;> omega

theorem svcMandTok_iff (toks : List (List UInt8)) (n : Nat) (u : List UInt8) (n' : Nat) (u' : List UInt8) (hn : n < 65536) :
    svcMandTok toks n u = (.success, n', u') ↔
      ∃ ks, List.Forall₂ KeyReads toks ks ∧ n' = (n + (ks.flatMap net16).length) % 65536 ∧ u' = u ++ ks.flatMap net16 := by
  induction toks generalizing n u with
  | nil =>
    simp only [svcMandTok, Prod.mk.injEq, true_and]
    constructor
    · rintro ⟨rfl, rfl⟩; exact ⟨[], .nil, by simp; omega, by simp⟩
    · rintro ⟨ks, h, rfl, rfl⟩; cases h; simp; omega
  | cons tok toks ih =>
    simp only [svcMandTok]
    by_cases hk : strToSvcparamkey tok = 65535
    · rw [if_pos hk]
      constructor
      · intro h; simp at h
      · rintro ⟨ks, h, -⟩
        cases h with
        | cons h _ =>
          have := (strToSvcparamkey_iff _ _ (keyReads_ne h)).mpr h
          exact absurd (this ▸ hk) (keyReads_ne h)
    · rw [if_neg hk, ih _ _ (by omega)]
      constructor
      · rintro ⟨ks, h, rfl, rfl⟩
        refine ⟨strToSvcparamkey tok :: ks, .cons ((strToSvcparamkey_iff _ _ hk).mp rfl) h, ?_, ?_⟩
        · simp only [List.flatMap_cons, List.length_append, net16, List.length_cons, List.length_nil]; omega
        · simp [htons, net16]
      · rintro ⟨ks, h, rfl, rfl⟩
        cases h with
        | @cons _ k _ ks h h' =>
          have := (strToSvcparamkey_iff _ _ (keyReads_ne h)).mpr h
          subst this
          refine ⟨ks, h', ?_, ?_⟩
          · simp only [List.flatMap_cons, List.length_append, net16, List.length_cons, List.length_nil]; omega
          · simp [htons, net16]

theorem svcIpTok_iff {pton : List UInt8 → Option (List UInt8)} {R : List UInt8 → List UInt8 → Prop} {sz : Nat}
    (hR : ∀ t a, pton t = some a ↔ R t a) (hl : ∀ t a, R t a → a.length = sz) (toks : List (List UInt8)) (n : Nat) (u : List UInt8)
    (n' : Nat) (u' : List UInt8) (hn : n < 65536) :
    svcIpTok pton sz toks n u = (.success, n', u') ↔
      ∃ as, List.Forall₂ R toks as ∧ n' = (n + as.flatten.length) % 65536 ∧ u' = u ++ as.flatten := by
  induction toks generalizing n u with
  | nil =>
    simp only [svcIpTok, Prod.mk.injEq, true_and]
    constructor
    · rintro ⟨rfl, rfl⟩; exact ⟨[], .nil, by simp; omega, by simp⟩
    · rintro ⟨ks, h, rfl, rfl⟩; cases h; simp; omega
  | cons tok toks ih =>
    rw [svcIpTok.eq_def]
    simp only
    cases hp : pton tok with
    | none =>
      constructor
      · intro h; simp at h
      · rintro ⟨ks, h, -⟩
        cases h with
        | cons h _ => rw [← hR, hp] at h; cases h
    | some a =>
      have ha := (hR _ _).mp hp
      have hla := hl _ _ ha
      simp only
      rw [ih _ _ (by omega)]
      constructor
      · rintro ⟨as, h, rfl, rfl⟩
        refine ⟨a :: as, .cons ha h, ?_, ?_⟩
        · simp only [List.flatten_cons, List.length_append]; omega
        · simp
      · rintro ⟨as, h, rfl, rfl⟩
        cases h with
        | @cons _ b _ as h h' =>
          rw [← hR, hp] at h
          cases h
          refine ⟨as, h', ?_, ?_⟩
          · simp only [List.flatten_cons, List.length_append]; omega
          · simp

theorem ofNat_mod256 (n : Nat) : UInt8.ofNat (n % 256) = UInt8.ofNat n := by
  apply UInt8.toNat.inj; simp

theorem alpnReads_cons {s : List UInt8} {l : List (List UInt8)} (h : AlpnReads s l) : ∃ i is, l = i :: is := by
  cases h <;> exact ⟨_, _, rfl⟩

theorem set_mid (p w : List UInt8) (x y : UInt8) : (p ++ [x] ++ w).set p.length y = p ++ [y] ++ w := by
  rw [List.append_assoc, List.set_append_right _ _ (Nat.le_refl _)]; simp

theorem svcAlpnTok_iff : ∀ (k : Nat) (s p w : List UInt8) (n n' : Nat) (u' : List UInt8), s.length = k → n < 65536 →
    (svcAlpnTok s p.length (w.length % 256) n (p ++ [0] ++ w) = (.success, n', u') ↔
      ∃ i is, AlpnReads s (i :: is) ∧ n' = (n + alpnLength ((w ++ i) :: is)) % 65536 ∧ u' = p ++ ((w ++ i) :: is).flatMap encString) := by
  intro k
  induction k using Nat.strong_induction_on with
  | _ k ih =>
    intro s p w n n' u' hk hn
    have hpush : ∀ d : UInt8, (w.length % 256 + 1) % 256 = (w ++ [d]).length % 256 := by intro d; simp
    have hassoc : ∀ d : UInt8, p ++ [0] ++ w ++ [d] = p ++ [0] ++ (w ++ [d]) := by intro d; simp
    cases s with
    | nil =>
      rw [svcAlpnTok]
      constructor
      · intro h
        refine ⟨[], [], .nil, ?_, ?_⟩
        · split at h
          · rename_i hz
            simp only [Prod.mk.injEq, true_and] at h
            rw [← h.1]; simp only [alpnLength, List.append_nil]; rw [if_neg hz]; rfl
          · rename_i hz
            simp only [Prod.mk.injEq, true_and] at h
            rw [← h.1]; simp only [alpnLength, List.append_nil]; rw [if_pos (by omega)]; omega
        · split at h
          · simp only [Prod.mk.injEq, true_and] at h
            rw [← h.2, set_mid, ofNat_mod256]; simp [encString]
          · rename_i hz
            simp only [Prod.mk.injEq, true_and] at h
            have : UInt8.ofNat w.length = 0 := by rw [← ofNat_mod256, show w.length % 256 = 0 by omega]; rfl
            rw [← h.2]; simp [encString, this]
      · rintro ⟨i, is, h, rfl, rfl⟩
        cases h
        simp only [alpnLength, List.append_nil]
        by_cases hz : w.length % 256 = 0
        · have : UInt8.ofNat w.length = 0 := by rw [← ofNat_mod256, hz]; rfl
          rw [if_neg (by omega), if_pos hz]
          simp [encString, this]; omega
        · rw [if_pos hz, if_neg hz, set_mid, ofNat_mod256]
          simp [encString]; rfl
    | cons c cs =>
      have hcs : cs.length < k := by simp at hk; omega
      rw [svcAlpnTok.eq_def]
      simp only
      by_cases h92 : c = 92
      · subst h92
        rw [if_pos rfl]
        cases cs with
        | nil =>
          constructor
          · intro h; simp at h
          · rintro ⟨i, is, h, -⟩
            cases h with
            | char _ h => exact absurd rfl h
        | cons d ds =>
          simp only
          by_cases hd : d = 44 ∨ d = 92
          · rw [if_neg (by tauto), hpush d, hassoc d, ih ds.length (by simp at hcs; omega) ds p (w ++ [d]) n n' u' rfl hn]
            constructor
            · rintro ⟨i, is, h, rfl, rfl⟩
              exact ⟨d :: i, is, .esc hd h, by simp, by simp⟩
            · rintro ⟨i, is, h, rfl, rfl⟩
              cases h with
              | char _ h => exact absurd rfl h
              | esc _ h => exact ⟨_, _, h, by simp, by simp⟩
          · rw [if_pos (by tauto)]
            constructor
            · intro h; simp at h
            · rintro ⟨i, is, h, -⟩
              cases h with
              | char _ h => exact absurd rfl h
              | esc h _ => exact absurd h hd
      · rw [if_neg h92]
        by_cases h44 : c = 44
        · subst h44
          rw [if_pos rfl]
          have e1 : (p ++ [0] ++ w).length = (p ++ encString w).length := by simp [encString]
          have e2 : (p ++ [0] ++ w).set p.length (UInt8.ofNat (w.length % 256)) ++ [0] = (p ++ encString w) ++ [0] ++ [] := by
            rw [set_mid, ofNat_mod256]; simp [encString]
          have := ih cs.length hcs cs (p ++ encString w) [] ((n + w.length % 256 + 1) % 65536) n' u' rfl (by omega)
          rw [e1, e2]
          simp only [List.length_nil, Nat.zero_mod] at this
          rw [this]
          constructor
          · rintro ⟨i, is, h, rfl, rfl⟩
            refine ⟨[], i :: is, .comma h, ?_, by simp⟩
            simp only [List.append_nil, List.nil_append, alpnLength]; omega
          · rintro ⟨i, is, h, rfl, rfl⟩
            cases h with
            | char h _ => exact absurd rfl h
            | comma h =>
              obtain ⟨j, js, rfl⟩ := alpnReads_cons h
              refine ⟨j, js, h, ?_, by simp⟩
              simp only [List.append_nil, List.nil_append, alpnLength]; omega
        · rw [if_neg h44, hpush c, hassoc c, ih cs.length hcs cs p (w ++ [c]) n n' u' rfl hn]
          constructor
          · rintro ⟨i, is, h, rfl, rfl⟩
            exact ⟨c :: i, is, .char h44 h92 h, by simp, by simp⟩
          · rintro ⟨i, is, h, rfl, rfl⟩
            cases h with
            | char _ _ h => exact ⟨_, _, h, by simp, by simp⟩
            | esc => exact absurd rfl h92
            | comma => exact absurd rfl h44

theorem pieces_ne_nil {c : UInt8} {v tok : List UInt8} (h : (pieces c v).head? = some tok) : tok ≠ [] := by
  have : tok ∈ pieces c v := List.mem_of_mem_head? (by rw [h]; rfl)
  unfold pieces at this
  simpa using (List.mem_filter.mp this).2

theorem svcPortTok_iff (cv u : List UInt8) (n' : Nat) (u' : List UInt8) : svcPortTok cv u = (.success, n', u') ↔
    ∃ tok p, (pieces 32 cv).head? = some tok ∧ UReads tok p ∧ p ≤ 65535 ∧ n' = 2 ∧ u' = u ++ net16 p := by
  unfold svcPortTok
  rw [strtok_eq_pieces]
  cases hp : (pieces 32 cv).head? with
  | none => simp
  | some tok =>
    have hne := pieces_ne_nil hp
    simp only
    constructor
    · intro h
      split at h
      · simp at h
      · rename_i hx
        have hx1 : (strtoul tok).2 = [] := by by_contra hc; exact hx (Or.inl hc)
        have hx2 : (strtoul tok).1 ≤ 65535 := by omega
        have he : strtoul tok = ((strtoul tok).1, []) := by rw [← hx1]
        rw [strtoul_iff _ _ hne (by omega)] at he
        simp only [Prod.mk.injEq, true_and] at h
        exact ⟨tok, _, rfl, he, hx2, h.1.symm, by rw [← h.2]; simp [htons, net16]⟩
    · rintro ⟨tok', p, h1, h2, h3, rfl, rfl⟩
      cases h1
      rw [← strtoul_iff _ _ hne (by omega)] at h2
      rw [h2]
      simp only
      rw [if_neg (by simp; omega)]
      simp [htons, net16]

theorem svcEchTok_iff (cv u : List UInt8) (n' : Nat) (u' : List UInt8) : svcEchTok cv u = ok (.success, n', u') ↔
    ∃ tok, (pieces 32 cv).head? = some tok ∧ tok.length ≤ 255 ∧ 123 ∉ tok ∧ n' = (unpack64 (tok.filterMap b64Val)).length % 65536 ∧
      u' = u ++ unpack64 (tok.filterMap b64Val) := by
  unfold svcEchTok
  rw [strtok_eq_pieces]
  cases hp : (pieces 32 cv).head? with
  | none => simp
  | some tok =>
    simp only
    by_cases hl : tok.length > 255
    · rw [if_pos hl]
      constructor
      · intro h; simp at h
      · rintro ⟨tok', h, h1, -⟩
        cases h; omega
    · rw [if_neg hl, bind_eq_ok]
      constructor
      · rintro ⟨b, hb, h⟩
        rw [base64StrToBytes_iff] at hb
        obtain ⟨h1, rfl⟩ := hb
        simp only [ok.injEq, Prod.mk.injEq, true_and] at h
        exact ⟨tok, rfl, by omega, h1, h.1.symm, h.2.symm⟩
      · rintro ⟨tok', h, h1, h2, rfl, rfl⟩
        cases h
        exact ⟨_, (base64StrToBytes_iff _ _).mpr ⟨h2, rfl⟩, rfl⟩

theorem ip4Reads_length {t a : List UInt8} (h : Ip4Reads t a) : a.length = 4 := by
  obtain ⟨_, _, _, _, -, rfl⟩ := h; rfl

theorem ip6Reads_length {t a : List UInt8} (h : Ip6Reads t a) : a.length = 16 := by
  cases h with
  | full _ h => exact h
  | short _ _ h => simp; omega

theorem svcValue_iff (k : Nat) (x u : List UInt8) (n' : Nat) (u' : List UInt8) :
    svcValue k x u = ok (.success, n', u') ↔ ∃ v n, ValueReads k x v n ∧ n' = n % 65536 ∧ u' = u ++ v := by
  unfold svcValue
  have hc : cstrOf x = cText x := rfl
  simp only [hc, strtok_eq_pieces]
  unfold ValueReads
  by_cases h0 : k = 0
  · simp only [if_pos h0, ok.injEq]
    by_cases hp : pieces 44 (cText x) = []
    · simp [hp]
    · rw [if_neg hp, svcMandTok_iff _ _ _ _ _ (by omega)]
      constructor
      · rintro ⟨ks, h, rfl, rfl⟩; exact ⟨_, _, ⟨hp, rfl, ks, h, rfl⟩, by omega, rfl⟩
      · rintro ⟨v, n, ⟨-, rfl, ks, h, rfl⟩, rfl, rfl⟩; exact ⟨ks, h, by simp, rfl⟩
  simp only [if_neg h0]
  by_cases h1 : k = 1
  · subst h1
    simp only [if_neg (show ¬ (1 : Nat) = 3 by decide), if_neg (show ¬ (1 : Nat) = 5 by decide), if_neg (show ¬ (1 : Nat) = 4 by decide),
      if_neg (show ¬ (1 : Nat) = 6 by decide), if_true, ok.injEq]
    have := svcAlpnTok_iff x.length x u [] 0 n' u' rfl (by omega)
    simp only [List.length_nil, Nat.zero_mod, List.append_nil, List.nil_append, Nat.zero_add] at this
    rw [this]
    constructor
    · rintro ⟨i, is, h, rfl, rfl⟩; exact ⟨_, _, ⟨_, h, rfl, rfl⟩, rfl, rfl⟩
    · rintro ⟨v, n, ⟨ids, h, rfl, rfl⟩, rfl, rfl⟩
      obtain ⟨i, is, rfl⟩ := alpnReads_cons h
      exact ⟨i, is, h, rfl, rfl⟩
  simp only [if_neg h1]
  by_cases h3 : k = 3
  · simp only [if_pos h3, ok.injEq]
    rw [svcPortTok_iff]
    constructor
    · rintro ⟨tok, p, e1, e2, e3, rfl, rfl⟩; exact ⟨_, _, ⟨tok, p, e1, e2, e3, rfl, rfl⟩, rfl, rfl⟩
    · rintro ⟨v, n, ⟨tok, p, e1, e2, e3, rfl, rfl⟩, rfl, rfl⟩; exact ⟨tok, p, e1, e2, e3, rfl, rfl⟩
  simp only [if_neg h3]
  by_cases h5 : k = 5
  · subst h5
    simp only [if_neg (show ¬ (5 : Nat) = 4 by decide), if_true]
    rw [svcEchTok_iff]
    constructor
    · rintro ⟨tok, e1, e2, e3, rfl, rfl⟩; exact ⟨_, _, ⟨tok, e1, e2, e3, rfl, rfl⟩, rfl, rfl⟩
    · rintro ⟨v, n, ⟨tok, e1, e2, e3, rfl, rfl⟩, rfl, rfl⟩; exact ⟨tok, e1, e2, e3, rfl, rfl⟩
  simp only [if_neg h5]
  by_cases h4 : k = 4
  · simp only [if_pos h4, ok.injEq]
    by_cases hp : pieces 44 (cText x) = []
    · simp [hp]
    · rw [if_neg hp, svcIpTok_iff inetPton4_iff (fun _ _ h => ip4Reads_length h) _ _ _ _ _ (by omega)]
      constructor
      · rintro ⟨ks, h, rfl, rfl⟩; exact ⟨_, _, ⟨hp, rfl, ks, h, rfl⟩, by omega, rfl⟩
      · rintro ⟨v, n, ⟨-, rfl, ks, h, rfl⟩, rfl, rfl⟩; exact ⟨ks, h, by simp, rfl⟩
  simp only [if_neg h4]
  by_cases h6 : k = 6
  · simp only [if_pos h6, ok.injEq]
    by_cases hp : pieces 44 (cText x) = []
    · simp [hp]
    · rw [if_neg hp, svcIpTok_iff inetPton6_iff (fun _ _ h => ip6Reads_length h) _ _ _ _ _ (by omega)]
      constructor
      · rintro ⟨ks, h, rfl, rfl⟩; exact ⟨_, _, ⟨hp, rfl, ks, h, rfl⟩, by omega, rfl⟩
      · rintro ⟨v, n, ⟨-, rfl, ks, h, rfl⟩, rfl, rfl⟩; exact ⟨ks, h, by simp, rfl⟩
  simp only [if_neg h6, ok.injEq, Prod.mk.injEq, true_and]
  constructor
  · rintro ⟨rfl, rfl⟩; exact ⟨_, _, ⟨rfl, rfl⟩, rfl, rfl⟩
  · rintro ⟨v, n, ⟨rfl, rfl⟩, rfl, rfl⟩; exact ⟨rfl, rfl⟩

theorem strToSvcparam_iff {k : Nat} (hk : k ≠ 65535) (h2 : k ≠ 2) (x u u' : List UInt8) :
    strToSvcparam u k (some x) = ok (.success, u') ↔
      ∃ v n, ValueReads k x v n ∧ u' = u ++ (net16 k ++ net16 (n % 65536) ++ v) := by
  unfold strToSvcparam
  rw [if_neg hk]
  simp only
  rw [if_neg h2, bind_eq_ok]
  constructor
  · rintro ⟨⟨r, n', u2⟩, hv, h⟩
    simp only at h
    split at h
    · rename_i hr
      simp only [ok.injEq, Prod.mk.injEq] at h
      exact absurd h.1 hr
    · rename_i hr
      have hr' : r = .success := by by_contra hc; exact hr hc
      subst hr'
      rw [svcValue_iff] at hv
      obtain ⟨v, n, hv, rfl, rfl⟩ := hv
      simp only [ok.injEq, Prod.mk.injEq, true_and] at h
      refine ⟨v, n, hv, ?_⟩
      rw [← h, poke2_after _ _ _ _ _ rfl]
      simp [htons, net16]
  · rintro ⟨v, n, hv, rfl⟩
    refine ⟨_, (svcValue_iff _ _ _ _ _).mpr ⟨v, n, hv, rfl, rfl⟩, ?_⟩
    simp only
    rw [if_neg (by simp), poke2_after _ _ _ _ _ rfl]
    simp [htons, net16]

theorem takeWhile_key (s : List UInt8) : ∃ key val, s = key ++ val ∧ s.takeWhile (fun c => decide (c ≠ 61 ∧ c ≠ 32)) = key ∧ 61 ∉ key ∧ 32 ∉ key ∧
    ∀ c, val.head? = some c → c = 61 ∨ c = 32 := by
  induction s with
  | nil => exact ⟨[], [], rfl, rfl, by simp, by simp, by simp⟩
  | cons c s ih =>
    obtain ⟨key, val, e, h1, h2, h3, h4⟩ := ih
    by_cases hc : c ≠ 61 ∧ c ≠ 32
    · refine ⟨c :: key, val, by rw [e]; rfl, ?_, ?_, ?_, h4⟩
      · rw [List.takeWhile_cons, if_pos (by simpa using hc), h1]
      · simp only [List.mem_cons, not_or]; exact ⟨fun h => hc.1 h.symm, h2⟩
      · simp only [List.mem_cons, not_or]; exact ⟨fun h => hc.2 h.symm, h3⟩
    · refine ⟨[], c :: s, rfl, ?_, by simp, by simp, ?_⟩
      · rw [List.takeWhile_cons, if_neg (by simpa using hc)]
      · intro d hd
        simp only [List.head?_cons, Option.some.injEq] at hd
        subst hd
        tauto

theorem keyReads_nil (k : Nat) : ¬ KeyReads [] k := by
  rintro (⟨h, e⟩ | ⟨-, -, d, h, -⟩)
  · exact keyText_ne_nil k e.symm
  · simp [ascii] at h

theorem sSvcparams_sound : ∀ (fuel : Nat) (s u : List UInt8) (p : Option (List UInt8)) (u' : List UInt8),
    sSvcparams fuel s u = ok (.go p u') → ∃ w, SvcReads s w ∧ p = some [] ∧ u' = u ++ w
  | 0, _, _, _, _, h => by simp [sSvcparams] at h
  | _ + 1, [], u, p, u', h => by
    simp only [sSvcparams, ok.injEq, FRes.go.injEq] at h
    exact ⟨[], .nil, h.1.symm, by simp [h.2]⟩
  | fuel + 1, c :: cs, u, p, u', h => by
    rw [sSvcparams_cons] at h
    by_cases hc : c = 32
    · subst hc
      rw [if_pos rfl] at h
      obtain ⟨w, hw, h1, h2⟩ := sSvcparams_sound fuel _ _ _ _ h
      exact ⟨w, .space hw, h1, h2⟩
    · rw [if_neg hc] at h
      obtain ⟨key, val, e, hkey, h61, h32, hval⟩ := takeWhile_key (c :: cs)
      simp only [hkey] at h
      rw [e, List.drop_left] at h
      rw [e]
      split at h
      · simp at h
      rename_i hk
      have hkr := (strToSvcparamkey_iff key _ hk).mp rfl
      split at h
      · rename_i hv
        split at h
        · simp at h
        · rename_i hk2
          have hk2' : strToSvcparamkey key = 2 := by omega
          rw [hk2'] at h hkr
          have : strToSvcparam u 2 none = ok (.success, u ++ htons 2 ++ [0, 0]) := rfl
          rw [this, ok_bind] at h
          simp only at h
          rw [if_neg (by simp)] at h
          obtain ⟨w, hw, h1, h2⟩ := sSvcparams_sound fuel _ _ _ _ h
          refine ⟨_, .flag h61 h32 hkr ?_ hw, h1, by rw [h2]; simp [htons, net16]⟩
          intro d hd
          rcases hv with rfl | hv
          · cases hd
          · rw [hd] at hv; cases hv; rfl
      · rename_i hv
        obtain ⟨x, rfl⟩ : ∃ x, val = 61 :: x := by
          cases val with
          | nil => exact absurd (Or.inl rfl) hv
          | cons d x =>
            rcases hval d rfl with rfl | rfl
            · exact ⟨x, rfl⟩
            · exact absurd (Or.inr rfl) hv
        simp only [List.drop_succ_cons, List.drop_zero] at h
        split at h
        · simp at h
        · rename_i hr
          obtain ⟨y, hy, hyu⟩ := fromStr_sound (s := x) (u := u) (k := (rdataFromStrString x u).1) (u' := (rdataFromStrString x u).2) rfl hr
          rw [hyu, List.take_left, List.drop_left, bind_eq_ok] at h
          obtain ⟨⟨r, u2⟩, hp, h⟩ := h
          simp only at h
          split at h
          · simp at h
          · rename_i hrs
            have hrs' : r = .success := by by_contra hc; exact hrs hc
            subst hrs'
            have hk2 : strToSvcparamkey key ≠ 2 := by
              intro hk2
              rw [hk2] at hp
              simp [strToSvcparam] at hp
            obtain ⟨v, n, hv, rfl⟩ := (strToSvcparam_iff hk hk2 _ _ _).mp hp
            obtain ⟨w, hw, h1, h2⟩ := sSvcparams_sound fuel _ _ _ _ h
            exact ⟨_, .param h61 h32 hkr hk2 hy hv hw, h1, by rw [h2]; simp⟩

theorem sSvcparams_complete {s w : List UInt8} (h : SvcReads s w) : ∀ (fuel : Nat) (u : List UInt8), s.length < fuel →
    sSvcparams fuel s u = ok (.go (some []) (u ++ w)) := by
  induction h with
  | nil =>
    intro fuel u hf
    match fuel, hf with
    | fuel + 1, _ => simp [sSvcparams]
  | @space s w _ ih =>
    intro fuel u hf
    match fuel, hf with
    | fuel + 1, hf =>
      rw [sSvcparams_cons, if_pos rfl]
      exact ih fuel u (by simp at hf; omega)
  | @flag key s w h61 h32 hk hs _ ih =>
    intro fuel u hf
    match fuel, hf with
    | fuel + 1, hf =>
      cases key with
      | nil => exact absurd hk (keyReads_nil _)
      | cons c cs =>
        have htk : ((c :: cs) ++ s).takeWhile (fun c => decide (c ≠ 61 ∧ c ≠ 32)) = c :: cs := by
          refine takeWhile_app (fun d hd => ?_) fun d hd => by rw [hs d hd]; rfl
          simp only [ne_eq, decide_eq_true_eq]
          exact ⟨fun h => h61 (h ▸ hd), fun h => h32 (h ▸ hd)⟩
        have hc : c ≠ 32 := fun h => h32 (by simp [h])
        rw [List.cons_append] at htk ⊢
        rw [sSvcparams_cons, if_neg hc]
        simp only [htk]
        rw [(strToSvcparamkey_iff _ _ (keyReads_ne hk)).mpr hk, if_neg (by decide), ← List.cons_append, List.drop_left, if_pos, if_neg (by decide)]
        · have : strToSvcparam u 2 none = ok (.success, u ++ htons 2 ++ [0, 0]) := rfl
          rw [this, ok_bind]
          simp only
          rw [if_neg (by simp), ih fuel _ (by simp at hf; omega)]
          simp [htons, net16]
        · cases s with
          | nil => exact Or.inl rfl
          | cons d s => rw [hs d rfl]; exact Or.inr rfl
  | @param key s x rest k v n w h61 h32 hk hk2 hx hv _ ih =>
    intro fuel u hf
    match fuel, hf with
    | fuel + 1, hf =>
      cases key with
      | nil => exact absurd hk (keyReads_nil _)
      | cons c cs =>
        have htk : ((c :: cs) ++ 61 :: s).takeWhile (fun c => decide (c ≠ 61 ∧ c ≠ 32)) = c :: cs := by
          refine takeWhile_app (fun d hd => ?_) fun d hd => by cases hd; rfl
          simp only [ne_eq, decide_eq_true_eq]
          exact ⟨fun h => h61 (h ▸ hd), fun h => h32 (h ▸ hd)⟩
        have hc : c ≠ 32 := fun h => h32 (by simp [h])
        obtain ⟨j, hj0, hj, hjr, -⟩ := fromStr_complete hx u
        rw [List.cons_append] at htk ⊢
        rw [sSvcparams_cons, if_neg hc]
        simp only [htk]
        rw [(strToSvcparamkey_iff _ _ (keyReads_ne hk)).mpr hk, if_neg (keyReads_ne hk), ← List.cons_append, List.drop_left, if_neg (by simp)]
        simp only [List.drop_succ_cons, List.drop_zero, hj]
        rw [if_neg hj0, List.take_left, List.drop_left, (strToSvcparam_iff (keyReads_ne hk) hk2 _ _ _).mpr ⟨v, n, hv, rfl⟩, ok_bind]
        simp only
        rw [if_neg (by simp), hjr, ih fuel]
        · simp
        · rw [← hjr, List.length_drop]; simp at hf; omega

/-! ## A6 prefixes -/

theorem dropSpace_iff (s t : List UInt8) : s.dropWhile isSpace = t ↔
    ∃ b, s = b ++ t ∧ (∀ c ∈ b, IsBlank c) ∧ ∀ c, t.head? = some c → ¬ IsBlank c := by
  constructor
  · intro h
    obtain ⟨b, t', e, h1, h2, h3⟩ := blank_split s
    rw [h] at h2
    subst h2
    exact ⟨b, e, h1, h3⟩
  · rintro ⟨b, rfl, h1, h2⟩
    exact dropSpace_blanks b h1 h2

theorem allBlank_iff (s : List UInt8) : (∀ c ∈ s, IsBlank c) ↔ s.dropWhile isSpace = [] := by
  rw [dropSpace_iff]
  constructor
  · intro h; exact ⟨s, by simp, h, by simp⟩
  · rintro ⟨b, rfl, h, -⟩; simpa using h

theorem sPrefixAddr_iff (pl : Nat) (hpl : pl ≤ 128) (s u : List UInt8) (rest u' : List UInt8) :
    (∃ p, At p rest ∧ sPrefixAddr pl s u = ok (.go p u')) ↔
      (∃ a, Ip6Reads (tokOf s) a ∧ (pl = 0 → ∀ c ∈ afterTok s, IsBlank c) ∧ rest = (if pl = 0 then [] else afterTok s) ∧
        u' = u ++ a.drop (16 - (128 - pl + 7) / 8)) ∨
      (pl = 128 ∧ s ≠ [] ∧ (∀ a, ¬ Ip6Reads (tokOf s) a) ∧ rest = s ∧ u' = u) := by
  have hnil : ∀ a, ¬ Ip6Reads [] a := by
    intro a h
    rw [← inetPton6_iff] at h
    cases h
  have hoc : (128 - pl) / 8 + (if pl % 8 ≠ 0 then 1 else 0) = (128 - pl + 7) / 8 := by
    split <;> omega
  unfold sPrefixAddr
  by_cases hs : s = []
  · subst hs
    rw [if_pos rfl]
    constructor
    · rintro ⟨p, -, h⟩; simp at h
    · rintro (⟨a, h, -⟩ | ⟨-, h, -⟩)
      · exact absurd h (hnil a)
      · exact absurd rfl h
  · rw [if_neg hs]
    simp only [hoc]
    cases hp : inetPton6 (tokOf s) with
    | none =>
      have hno : ∀ a, ¬ Ip6Reads (tokOf s) a := by
        intro a h
        rw [← inetPton6_iff, hp] at h
        cases h
      simp only
      by_cases h128 : pl = 128
      · rw [if_neg (by simpa using h128)]
        constructor
        · rintro ⟨p, hpr, h⟩
          simp only [ok.injEq, FRes.go.injEq] at h
          obtain ⟨rfl, rfl⟩ := h
          exact Or.inr ⟨h128, hs, hno, at_some.mp hpr, rfl⟩
        · rintro (⟨a, h, -⟩ | ⟨-, -, -, rfl, rfl⟩)
          · exact absurd h (hno a)
          · exact ⟨_, at_some.mpr rfl, rfl⟩
      · rw [if_pos h128]
        constructor
        · rintro ⟨p, -, h⟩; simp at h
        · rintro (⟨a, h, -⟩ | ⟨h, -⟩)
          · exact absurd h (hno a)
          · exact absurd h h128
    | some a =>
      have ha := (inetPton6_iff _ _).mp hp
      have hun : ∀ b, Ip6Reads (tokOf s) b → b = a := by
        intro b h
        rw [← inetPton6_iff, hp] at h
        cases h; rfl
      have hrhs : ∀ P : Prop, ((P ↔ (pl = 0 → ∀ c ∈ afterTok s, IsBlank c) ∧ rest = (if pl = 0 then [] else afterTok s) ∧
          u' = u ++ a.drop (16 - (128 - pl + 7) / 8)) → (P ↔ (∃ a, Ip6Reads (tokOf s) a ∧ (pl = 0 → ∀ c ∈ afterTok s, IsBlank c) ∧ rest = (if pl = 0 then [] else afterTok s) ∧
        u' = u ++ a.drop (16 - (128 - pl + 7) / 8)) ∨
      (pl = 128 ∧ s ≠ [] ∧ (∀ a, ¬ Ip6Reads (tokOf s) a) ∧ rest = s ∧ u' = u))) := by
        intro P h
        rw [h]
        constructor
        · intro h; exact Or.inl ⟨a, ha, h⟩
        · rintro (⟨b, hb, h⟩ | ⟨-, -, h, -⟩)
          · rw [hun b hb] at h; exact h
          · exact absurd ha (h a)
      apply hrhs
      simp only
      by_cases h0 : pl = 0
      · simp only [h0, if_true, true_and, forall_const]
        rw [allBlank_iff]
        by_cases he : endPtr s = none
        · rw [if_neg (by simp [he]), he]
          have : afterTok s = [] := by
            unfold endPtr at he
            split at he
            · assumption
            · cases he
          constructor
          · rintro ⟨p, hpr, h⟩
            simp only [ok.injEq, FRes.go.injEq] at h
            obtain ⟨rfl, rfl⟩ := h
            exact ⟨by rw [this]; rfl, at_none.mp hpr, rfl⟩
          · rintro ⟨-, rfl, rfl⟩; exact ⟨_, at_none.mpr rfl, rfl⟩
        · rw [if_pos (by simpa using he)]
          by_cases hb : (afterTok s).dropWhile isSpace = []
          · rw [if_neg (by simpa using hb)]
            constructor
            · rintro ⟨p, hpr, h⟩
              simp only [ok.injEq, FRes.go.injEq] at h
              obtain ⟨rfl, rfl⟩ := h
              exact ⟨hb, at_none.mp hpr, rfl⟩
            · rintro ⟨-, rfl, rfl⟩; exact ⟨_, at_none.mpr rfl, rfl⟩
          · rw [if_pos hb]
            constructor
            · rintro ⟨p, -, h⟩; simp at h
            · rintro ⟨h, -⟩; exact absurd h hb
      · rw [if_neg (by simp [h0]), if_neg h0]
        constructor
        · rintro ⟨p, hpr, h⟩
          simp only [ok.injEq, FRes.go.injEq] at h
          obtain ⟨rfl, rfl⟩ := h
          exact ⟨fun h => absurd h h0, at_endPtr.mp hpr, rfl⟩
        · rintro ⟨-, rfl, rfl⟩; exact ⟨_, at_endPtr.mpr rfl, rfl⟩

theorem sPrefix_iff {s : List UInt8} (h : s ≠ []) (hs : ∀ c, s.head? = some c → ¬ IsBlank c) (u rest u' : List UInt8) :
    (∃ p, At p rest ∧ sPrefix s u = ok (.go p u')) ↔ ∃ f, FieldReads .ipv6prefix s f rest ∧ u' = u ++ f := by
  unfold sPrefix
  by_cases hd : (tokOf s).all isDigit = true
  · rw [if_pos hd]
    rw [all_digit] at hd
    rw [scanfU_tok h hs hd]
    simp only
    generalize hplv : min (decVal (tokOf s)) (2 ^ 64 - 1) % 2 ^ 8 = pl
    by_cases hpl : pl > 128
    · rw [if_pos hpl]
      constructor
      · rintro ⟨p, -, h⟩; simp at h
      · rintro ⟨f, h, -⟩
        cases h with
        | prefixFull hw _ hx hle =>
          obtain ⟨rfl, rfl⟩ := (word_iff _ _ _).mp hw
          rw [← hx.trans hplv] at hpl
          omega
        | prefixNone hw _ hx =>
          obtain ⟨rfl, rfl⟩ := (word_iff _ _ _).mp hw
          have := hx.symm.trans hplv
          omega
        | int ht => simp at ht
        | name ht => simp at ht
    · rw [if_neg hpl, sPrefixAddr_iff pl (by omega)]
      constructor
      · rintro (⟨a, ha, hz, hr, hu⟩ | ⟨h128, hne, hno, hr, hu⟩)
        · subst hr
          obtain ⟨b, e1, e2, e3⟩ := (dropSpace_iff (afterTok s) _).mp rfl
          refine ⟨_, .prefixFull ((word_iff _ _ _).mpr ⟨rfl, rfl⟩) hd hplv.symm (by omega) e1 e2 e3 ((word_iff _ _ _).mpr ⟨rfl, rfl⟩) ha hz, ?_⟩
          rw [hu]; simp
        · obtain ⟨b, e1, e2, e3⟩ := (dropSpace_iff (afterTok s) _).mp rfl
          subst hr
          refine ⟨_, .prefixNone ((word_iff _ _ _).mpr ⟨rfl, rfl⟩) hd (hplv.trans h128) e1 e2 hne e3 ((word_iff _ _ _).mpr ⟨rfl, rfl⟩) hno, ?_⟩
          rw [hu, h128]; rfl
      · rintro ⟨f, h, rfl⟩
        cases h with
        | prefixFull hw _ hx hle e1 e2 e3 hw' ha hz =>
          obtain ⟨rfl, rfl⟩ := (word_iff _ _ _).mp hw
          obtain rfl := (dropSpace_iff _ _).mpr ⟨_, e1, e2, e3⟩
          obtain ⟨rfl, rfl⟩ := (word_iff _ _ _).mp hw'
          have hx' := hx.trans hplv
          subst hx'
          exact Or.inl ⟨_, ha, hz, rfl, by simp⟩
        | prefixNone hw _ hx e1 e2 hne e3 hw' hno =>
          obtain ⟨rfl, rfl⟩ := (word_iff _ _ _).mp hw
          obtain rfl := (dropSpace_iff _ _).mpr ⟨_, e1, e2, e3⟩
          obtain ⟨rfl, rfl⟩ := (word_iff _ _ _).mp hw'
          have h128 : pl = 128 := hplv.symm.trans hx
          exact Or.inr ⟨h128, hne, hno, rfl, by rw [h128]; rfl⟩
        | int ht => simp at ht
        | name ht => simp at ht
  · rw [if_neg hd]
    constructor
    · rintro ⟨p, -, h⟩; simp at h
    · rintro ⟨f, h, -⟩
      rw [all_digit] at hd
      cases h with
      | prefixFull hw hd' =>
        obtain ⟨rfl, rfl⟩ := (word_iff _ _ _).mp hw
        exact absurd hd' hd
      | prefixNone hw hd' =>
        obtain ⟨rfl, rfl⟩ := (word_iff _ _ _).mp hw
        exact absurd hd' hd
      | int ht => simp at ht
      | name ht => simp at ht

/-! ## Any field -/

theorem word_self (s : List UInt8) : Word s (tokOf s) (afterTok s) := (word_iff _ _ _).mpr ⟨rfl, rfl⟩

theorem tokOf_mem {c : UInt8} {s : List UInt8} (h : c ∈ tokOf s) : c ∈ s := (List.takeWhile_sublist _).subset h

theorem name_field_iff {t : Rdf} (ht : t = .name ∨ t = .uname) {s : List UInt8} (h0 : 0 ∉ s) (u rest u' : List UInt8) :
    (∃ p, At p rest ∧ sField t s u = ok (.go p u')) ↔ ∃ f, FieldReads t s f rest ∧ u' = u ++ f := by
  have h0' : 0 ∉ tokOf s := fun h => h0 (tokOf_mem h)
  have hf : ∀ p, sField t s u = ok (.go p u') ↔ ∃ n, strToNameCase (tokOf s) = ok n ∧ p = endPtr s ∧ u' = u ++ n.data := by
    intro p
    have : sField t s u = sField .name s u := by rcases ht with rfl | rfl <;> rfl
    rw [this]
    simp only [sField]
    cases strToNameCase (tokOf s) with
    | ok n =>
      simp only [ok.injEq, FRes.go.injEq]
      constructor
      · rintro ⟨rfl, rfl⟩; exact ⟨n, rfl, rfl, rfl⟩
      · rintro ⟨m, rfl, rfl, rfl⟩; exact ⟨rfl, rfl⟩
    | err e => simp
    | ub => simp
    | hang => simp
    | abort => simp
  constructor
  · rintro ⟨p, hp, h⟩
    rw [hf] at h
    obtain ⟨n, hn, rfl, rfl⟩ := h
    rw [C70_name_case_exact _ h0'] at hn
    obtain ⟨m, hm, hl, rfl⟩ := hn
    rw [at_endPtr] at hp
    subst hp
    exact ⟨_, .name ht (word_self s) hm hl, rfl⟩
  · rintro ⟨f, h, rfl⟩
    have : ∃ n, NameReads id (tokOf s) n ∧ (wire n).length ≤ 255 ∧ f = wire n ∧ rest = afterTok s := by
      rcases ht with rfl | rfl
      · cases h with
        | name _ hw hn hl =>
          obtain ⟨rfl, rfl⟩ := (word_iff _ _ _).mp hw
          exact ⟨_, hn, hl, rfl, rfl⟩
        | int ht => simp at ht
      · cases h with
        | name _ hw hn hl =>
          obtain ⟨rfl, rfl⟩ := (word_iff _ _ _).mp hw
          exact ⟨_, hn, hl, rfl, rfl⟩
        | int ht => simp at ht
    obtain ⟨n, hn, hl, rfl, rfl⟩ := this
    exact ⟨_, at_endPtr.mpr rfl, (hf _).mpr ⟨_, (C70_name_case_exact _ h0' _).mpr ⟨n, hn, hl, rfl⟩, rfl, rfl⟩⟩

theorem int_field_iff {t : Rdf} {k : Nat} (ht : (t, k) ∈ [(Rdf.int8, 1), (.int16, 2), (.int32, 4)]) {s : List UInt8} (h : s ≠ [])
    (hs : ∀ c, s.head? = some c → ¬ IsBlank c) (u rest u' : List UInt8) :
    (∃ p, At p rest ∧ sField t s u = ok (.go p u')) ↔ ∃ f, FieldReads t s f rest ∧ u' = u ++ f := by
  have hk : k ≤ 7 := by
    simp only [List.mem_cons, Prod.mk.injEq, List.not_mem_nil, or_false] at ht
    omega
  have hf : sField t s u = sInt k s u := by
    simp only [List.mem_cons, Prod.mk.injEq, List.not_mem_nil, or_false] at ht
    rcases ht with ⟨rfl, rfl⟩ | ⟨rfl, rfl⟩ | ⟨rfl, rfl⟩ <;> rfl
  rw [hf]
  constructor
  · rintro ⟨p, hp, h'⟩
    rw [sInt_iff h hs hk] at h'
    obtain ⟨h1, h2, rfl, rfl⟩ := h'
    rw [at_some] at hp
    subst hp
    exact ⟨_, .int ht (word_self s) h1 h2, rfl⟩
  · rintro ⟨f, h', rfl⟩
    have : ∀ {t' k' : _}, (t', k) ∈ [(Rdf.int8, 1), (.int16, 2), (.int32, 4)] → (t', k') ∈ [(Rdf.int8, 1), (.int16, 2), (.int32, 4)] → k' = k := by
      intro t' k' h1 h2
      simp only [List.mem_cons, Prod.mk.injEq, List.not_mem_nil, or_false] at h1 h2
      rcases h1 with ⟨rfl, rfl⟩ | ⟨rfl, rfl⟩ | ⟨rfl, rfl⟩ <;> simp at h2 <;> exact h2
    have : (∀ c ∈ tokOf s, IsDigit c) ∧ decVal (tokOf s) < 256 ^ k ∧ f = bigEndian k (decVal (tokOf s)) ∧ rest = afterTok s := by
      cases h' with
      | int ht' hw h1 h2 =>
        obtain ⟨rfl, rfl⟩ := (word_iff _ _ _).mp hw
        obtain rfl := this ht ht'
        exact ⟨h1, h2, rfl, rfl⟩
      | name ht' => rcases ht' with rfl | rfl <;> simp at ht
      | _ => simp at ht
    obtain ⟨h1, h2, rfl, rfl⟩ := this
    exact ⟨_, at_some.mpr rfl, (sInt_iff h hs hk _ _ _).mpr ⟨h1, h2, rfl, rfl⟩⟩

theorem eui_field_iff (n : Nat) (t : Rdf) (ht : (t = .eui48 ∧ n = 5) ∨ (t = .eui64 ∧ n = 7)) (s u rest u' : List UInt8) :
    (∃ p, At p rest ∧ sField t s u = ok (.go p u')) ↔ ∃ f, FieldReads t s f rest ∧ u' = u ++ f := by
  have hf : sField t s u = sEui (n + 1) s u := by rcases ht with ⟨rfl, rfl⟩ | ⟨rfl, rfl⟩ <;> rfl
  rw [hf]
  constructor
  · rintro ⟨p, hp, h⟩
    rw [sEui_iff] at h
    obtain ⟨w, h1, h2, rfl, rfl⟩ := h
    rw [at_some] at hp
    subst hp
    rcases ht with ⟨rfl, rfl⟩ | ⟨rfl, rfl⟩
    · exact ⟨_, .eui48 h1 h2, rfl⟩
    · exact ⟨_, .eui64 h1 h2, rfl⟩
  · rintro ⟨f, h, rfl⟩
    have : EuiReads s f ∧ f.length = n + 1 ∧ rest = [] := by
      rcases ht with ⟨rfl, rfl⟩ | ⟨rfl, rfl⟩
      · cases h with
        | eui48 h1 h2 => exact ⟨h1, h2, rfl⟩
        | int ht => simp at ht
        | name ht => simp at ht
      · cases h with
        | eui64 h1 h2 => exact ⟨h1, h2, rfl⟩
        | int ht => simp at ht
        | name ht => simp at ht
    obtain ⟨h1, h2, rfl⟩ := this
    exact ⟨_, at_some.mpr rfl, (sEui_iff _ _ _ _ _).mpr ⟨f, h1, h2, rfl, rfl⟩⟩

theorem field_iff {t : Rdf} {s : List UInt8} (h : s ≠ []) (hs : ∀ c, s.head? = some c → ¬ IsBlank c) (h0 : 0 ∉ s) (u rest u' : List UInt8) :
    (∃ p, At p rest ∧ sField t s u = ok (.go p u')) ↔ ∃ f, FieldReads t s f rest ∧ u' = u ++ f := by
  cases t with
  | name => exact name_field_iff (Or.inl rfl) h0 _ _ _
  | uname => exact name_field_iff (Or.inr rfl) h0 _ _ _
  | int8 => exact int_field_iff (k := 1) (by simp) h hs _ _ _
  | int16 => exact int_field_iff (k := 2) (by simp) h hs _ _ _
  | int32 => exact int_field_iff (k := 4) (by simp) h hs _ _ _
  | eui48 => exact eui_field_iff 5 _ (Or.inl ⟨rfl, rfl⟩) _ _ _ _
  | eui64 => exact eui_field_iff 7 _ (Or.inr ⟨rfl, rfl⟩) _ _ _ _
  | ipv6prefix => exact sPrefix_iff h hs _ _ _
  | bytes =>
    simp only [sField]
    constructor
    · rintro ⟨p, hp, h⟩
      obtain ⟨rfl, w, hw, rfl⟩ := (sBytes_iff _ _ _ _).mp h
      rw [at_some] at hp
      subst hp
      exact ⟨w, .bytes hw, rfl⟩
    · rintro ⟨f, h, rfl⟩
      cases h with
      | bytes hw => exact ⟨_, at_some.mpr rfl, (sBytes_iff _ _ _ _).mpr ⟨rfl, _, hw, rfl⟩⟩
      | int ht => simp at ht
      | name ht => simp at ht
  | bytesB64 =>
    simp only [sField, bind_eq_ok]
    constructor
    · rintro ⟨p, hp, b, hb, h⟩
      rw [base64StrToBytes_iff] at hb
      obtain ⟨hb, rfl⟩ := hb
      simp only [ok.injEq, FRes.go.injEq] at h
      obtain ⟨rfl, rfl⟩ := h
      rw [at_some] at hp
      subst hp
      exact ⟨_, .bytesB64 hb, rfl⟩
    · rintro ⟨f, h, rfl⟩
      cases h with
      | bytesB64 hb => exact ⟨_, at_some.mpr rfl, _, (base64StrToBytes_iff _ _).mpr ⟨hb, rfl⟩, rfl⟩
      | int ht => simp at ht
      | name ht => simp at ht
  | bytesStr =>
    simp only [sField]
    constructor
    · rintro ⟨p, hp, h⟩
      split at h
      · rename_i hc
        split at h
        · simp at h
        · rename_i hr
          obtain ⟨w, hw, hwu⟩ := fromStr_sound (s := s) (u := u) (k := (rdataFromStrString s u).1) (u' := (rdataFromStrString s u).2) rfl hr
          simp only [ok.injEq, FRes.go.injEq] at h
          obtain ⟨rfl, rfl⟩ := h
          rw [at_some] at hp
          subst hp
          exact ⟨w, .bytesStr hc.1 hc.2.1 hc.2.2 hw, hwu⟩
      · simp at h
    · rintro ⟨f, h, rfl⟩
      cases h with
      | bytesStr h1 h2 h3 hw =>
        obtain ⟨k, hk, e, -⟩ := fromStr_complete hw u
        refine ⟨_, at_some.mpr rfl, ?_⟩
        rw [if_pos ⟨h1, h2, h3⟩, e]
        simp only
        rw [if_neg hk]
      | int ht => simp at ht
      | name ht => simp at ht
  | salt =>
    simp only [sField]
    by_cases h45 : tokOf s = [45]
    · rw [if_pos h45]
      have hat : afterTok s = s.drop 1 := by rw [afterTok_eq, h45]; rfl
      constructor
      · rintro ⟨p, hp, h⟩
        simp only [ok.injEq, FRes.go.injEq] at h
        obtain ⟨rfl, rfl⟩ := h
        rw [at_some] at hp
        subst hp
        have := word_self s
        rw [h45, hat] at this
        exact ⟨_, .noSalt this, rfl⟩
      · rintro ⟨f, h, rfl⟩
        cases h with
        | noSalt hw =>
          obtain ⟨-, rfl⟩ := (word_iff _ _ _).mp hw
          exact ⟨_, at_some.mpr rfl, by rw [hat]⟩
        | salt hw h1 =>
          obtain ⟨rfl, rfl⟩ := (word_iff _ _ _).mp hw
          exact absurd h45 h1
        | int ht => simp at ht
        | name ht => simp at ht
    · rw [if_neg h45]
      by_cases hl : (tokOf s).length > 510 ∨ (tokOf s).length % 2 = 1
      · rw [if_pos hl]
        constructor
        · rintro ⟨p, -, h⟩; simp at h
        · rintro ⟨f, h, -⟩
          cases h with
          | noSalt hw =>
            obtain ⟨h1, rfl⟩ := (word_iff _ _ _).mp hw
            exact absurd h1.symm h45
          | salt hw h1 h2 h3 =>
            obtain ⟨rfl, rfl⟩ := (word_iff _ _ _).mp hw
            omega
          | int ht => simp at ht
          | name ht => simp at ht
      · rw [if_neg hl]
        have hlen := tok_length s
        constructor
        · rintro ⟨p, hp, h⟩
          rw [sSalt_iff _ _ _ _ _ (by omega)] at h
          obtain ⟨w, r, hw, hx, rfl, rfl⟩ := h
          rw [at_some] at hp
          subst hp
          refine ⟨_, .salt (word_self s) h45 (by omega) (by omega) hx, ?_⟩
          simp [encString, hw]
        · rintro ⟨f, h, rfl⟩
          cases h with
          | noSalt hw =>
            obtain ⟨h1, rfl⟩ := (word_iff _ _ _).mp hw
            exact absurd h1.symm h45
          | salt hw h1 h2 h3 hx =>
            obtain ⟨rfl, rfl⟩ := (word_iff _ _ _).mp hw
            refine ⟨_, at_some.mpr rfl, (sSalt_iff _ _ _ _ _ (by omega)).mpr ⟨_, _, by omega, hx, rfl, ?_⟩⟩
            rw [← h3]
            simp [encString]
          | int ht => simp at ht
          | name ht => simp at ht
  | hash =>
    simp only [sField]
    by_cases hl : (tokOf s).length = 1
    · rw [if_pos hl]
      obtain ⟨c, hc⟩ := List.length_eq_one_iff.mp hl
      have hat : afterTok s = s.drop 1 := by rw [afterTok_eq, hl]
      constructor
      · rintro ⟨p, hp, h⟩
        simp only [ok.injEq, FRes.go.injEq] at h
        obtain ⟨rfl, rfl⟩ := h
        rw [at_some] at hp
        subst hp
        have := word_self s
        rw [hc, hat] at this
        exact ⟨_, .noHash this, rfl⟩
      · rintro ⟨f, h, rfl⟩
        cases h with
        | noHash hw =>
          obtain ⟨-, rfl⟩ := (word_iff _ _ _).mp hw
          exact ⟨_, at_some.mpr rfl, by rw [hat]⟩
        | hash hw h1 =>
          obtain ⟨rfl, rfl⟩ := (word_iff _ _ _).mp hw
          exact absurd hl h1
        | int ht => simp at ht
        | name ht => simp at ht
    · rw [if_neg hl]
      constructor
      · rintro ⟨p, hp, h⟩
        split at h
        · simp at h
        · rename_i b hb
          rw [base32Decode_iff] at hb
          obtain ⟨hb, rfl⟩ := hb
          split at h
          · simp at h
          · simp only [ok.injEq, FRes.go.injEq] at h
            obtain ⟨rfl, rfl⟩ := h
            rw [at_some] at hp
            subst hp
            exact ⟨_, .hash (word_self s) hl hb (by omega), by simp [encString]⟩
      · rintro ⟨f, h, rfl⟩
        cases h with
        | noHash hw =>
          obtain ⟨h1, rfl⟩ := (word_iff _ _ _).mp hw
          rw [← h1] at hl
          exact absurd rfl hl
        | hash hw h1 h2 h3 =>
          obtain ⟨rfl, rfl⟩ := (word_iff _ _ _).mp hw
          refine ⟨_, at_some.mpr rfl, ?_⟩
          rw [(base32Decode_iff _ _).mpr ⟨h2, rfl⟩]
          simp only
          rw [if_neg (by omega)]
          simp [encString]
        | int ht => simp at ht
        | name ht => simp at ht
  | ipv4 =>
    simp only [sField]
    constructor
    · rintro ⟨p, hp, h⟩
      split at h
      · simp at h
      · rename_i a ha
        simp only [ok.injEq, FRes.go.injEq] at h
        obtain ⟨rfl, rfl⟩ := h
        rw [at_some] at hp
        subst hp
        exact ⟨_, .ipv4 (word_self s) ((inetPton4_iff _ _).mp ha), rfl⟩
    · rintro ⟨f, h, rfl⟩
      cases h with
      | ipv4 hw ha =>
        obtain ⟨rfl, rfl⟩ := (word_iff _ _ _).mp hw
        refine ⟨_, at_some.mpr rfl, ?_⟩
        rw [(inetPton4_iff _ _).mpr ha]
      | int ht => simp at ht
      | name ht => simp at ht
  | ipv6 =>
    simp only [sField]
    constructor
    · rintro ⟨p, hp, h⟩
      split at h
      · simp at h
      · rename_i a ha
        simp only [ok.injEq, FRes.go.injEq] at h
        obtain ⟨rfl, rfl⟩ := h
        rw [at_endPtr] at hp
        subst hp
        exact ⟨_, .ipv6 (word_self s) ((inetPton6_iff _ _).mp ha), rfl⟩
    · rintro ⟨f, h, rfl⟩
      cases h with
      | ipv6 hw ha =>
        obtain ⟨rfl, rfl⟩ := (word_iff _ _ _).mp hw
        refine ⟨_, at_endPtr.mpr rfl, ?_⟩
        rw [(inetPton6_iff _ _).mpr ha]
      | int ht => simp at ht
      | name ht => simp at ht
  | string =>
    simp only [sField]
    constructor
    · rintro ⟨p, hp, h⟩
      split at h
      · simp at h
      · rename_i hr
        have hr' : (strToUbuf s u).1 = .success := by by_contra hc; exact hr hc
        simp only [ok.injEq, FRes.go.injEq] at h
        obtain ⟨rfl, rfl⟩ := h
        rw [at_some] at hp
        subst hp
        obtain ⟨w, h1, h2, h3⟩ := strToUbuf_sound (s := s) (u := u) (s' := (strToUbuf s u).2.1) (u' := (strToUbuf s u).2.2) (by rw [← hr'])
        exact ⟨_, .string h1 h2, h3⟩
    · rintro ⟨f, h, rfl⟩
      cases h with
      | string h1 h2 =>
        refine ⟨_, at_some.mpr rfl, ?_⟩
        rw [strToUbuf_complete h1 h2]
        simp
      | int ht => simp at ht
      | name ht => simp at ht
  | repstring =>
    simp only [sField]
    constructor
    · rintro ⟨p, hp, h⟩
      obtain ⟨ws, h1, rfl, rfl⟩ := sRepstring_sound _ _ _ _ _ h
      rw [at_some] at hp
      subst hp
      exact ⟨_, .repstring h1, rfl⟩
    · rintro ⟨f, h, rfl⟩
      cases h with
      | repstring h1 => exact ⟨_, at_some.mpr rfl, sRepstring_complete h1 _ _ (by omega)⟩
      | int ht => simp at ht
      | name ht => simp at ht
  | rrtype =>
    simp only [sField, bind_eq_ok]
    constructor
    · rintro ⟨p, hp, t, ht, h⟩
      split at h
      · simp at h
      · rename_i ht0
        simp only [ok.injEq, FRes.go.injEq] at h
        obtain ⟨rfl, rfl⟩ := h
        rw [at_endPtr] at hp
        subst hp
        rcases (strToRrtype_iff _ _).mp ht with ht | ⟨ht, -⟩
        · exact ⟨_, .rrtype (word_self s) ht ht0, rfl⟩
        · exact absurd ht ht0
    · rintro ⟨f, h, rfl⟩
      cases h with
      | rrtype hw ht ht0 =>
        obtain ⟨rfl, rfl⟩ := (word_iff _ _ _).mp hw
        refine ⟨_, at_endPtr.mpr rfl, _, (strToRrtype_iff _ _).mpr (Or.inl ht), ?_⟩
        rw [if_neg ht0]
        rfl
      | int ht => simp at ht
      | name ht => simp at ht
  | svcparams =>
    simp only [sField]
    constructor
    · rintro ⟨p, hp, h⟩
      obtain ⟨w, h1, rfl, rfl⟩ := sSvcparams_sound _ _ _ _ _ h
      rw [at_some] at hp
      subst hp
      exact ⟨_, .svcparams h1, rfl⟩
    · rintro ⟨f, h, rfl⟩
      cases h with
      | svcparams h1 => exact ⟨_, at_some.mpr rfl, sSvcparams_complete h1 _ _ (by omega)⟩
      | int ht => simp at ht
      | name ht => simp at ht
  | typeBitmap =>
    simp only [sField]
    constructor
    · rintro ⟨p, hp, h⟩
      obtain ⟨ts, f, h1, h2, rfl, rfl⟩ := (sBitmap_iff _ _ _ _).mp h
      rw [at_none] at hp
      subst hp
      exact ⟨_, .bitmap h1 h2, rfl⟩
    · rintro ⟨f, h, rfl⟩
      cases h with
      | bitmap h1 h2 => exact ⟨_, at_none.mpr rfl, (sBitmap_iff _ _ _ _).mpr ⟨_, _, h1, h2, rfl, rfl⟩⟩
      | int ht => simp at ht
      | name ht => simp at ht
  | ednsOptRdata =>
    simp only [sField]
    constructor
    · rintro ⟨p, hp, h⟩; simp at h
    · rintro ⟨f, h, rfl⟩
      cases h with
      | int ht => simp at ht
      | name ht => simp at ht

/-! ## All fields -/

theorem hexPairs_suffix {s w rest : List UInt8} (h : HexPairs s w rest) : rest <:+ s := by
  induction h with
  | nil => exact List.suffix_refl _
  | cons _ _ ih => exact ih.trans ((List.suffix_cons _ _).trans (List.suffix_cons _ _))

theorem word_suffix {s tok rest : List UInt8} (h : Word s tok rest) : rest <:+ s := ⟨tok, h.1.symm⟩

theorem stringReads_suffix {s w rest : List UInt8} (h : StringReads s w rest) : rest <:+ s := by
  obtain ⟨k, -, -, rfl, -⟩ := fromStr_complete h []
  exact List.drop_suffix _ _

theorem suffix_of {s b t : List UInt8} (h : s = b ++ t) : t <:+ s := ⟨b, h.symm⟩

theorem fieldReads_suffix {t : Rdf} {s f rest : List UInt8} (h : FieldReads t s f rest) : rest <:+ s := by
  cases h with
  | name _ hw => exact word_suffix hw
  | int _ hw => exact word_suffix hw
  | ipv4 hw => exact word_suffix hw
  | ipv6 hw => exact word_suffix hw
  | rrtype hw => exact word_suffix hw
  | noSalt hw => exact word_suffix hw
  | noHash hw => exact word_suffix hw
  | hash hw => exact word_suffix hw
  | salt _ _ _ _ h => exact hexPairs_suffix h
  | string h => exact stringReads_suffix h
  | bytesB64 => exact List.drop_suffix _ _
  | prefixFull hw _ _ _ e _ _ hw' =>
    split
    · exact List.nil_suffix
    · exact (word_suffix hw').trans ((suffix_of e).trans (word_suffix hw))
  | prefixNone hw _ _ e => exact (suffix_of e).trans (word_suffix hw)
  | _ => exact List.nil_suffix

theorem sFields_iff (ts : List Rdf) : ∀ (s u u' : List UInt8) (p : Option (List UInt8)), 0 ∉ s → At p s →
    ((∃ q, sFields ts p u = ok (.go q u')) ↔ ∃ w, Scanned ts s w ∧ u' = u ++ w) := by
  induction ts with
  | nil =>
    intro s u u' p h0 hp
    simp only [sFields]
    constructor
    · rintro ⟨q, h⟩
      simp only [ok.injEq, FRes.go.injEq] at h
      exact ⟨[], .done, by simp [h.2]⟩
    · rintro ⟨w, h, rfl⟩
      cases h
      exact ⟨p, by simp⟩
  | cons t ts ih =>
    intro s u u' p h0 hp
    have hempty : (∀ c ∈ s, IsBlank c) → (u' = u ↔ ∃ w, Scanned (t :: ts) s w ∧ u' = u ++ w) := by
      intro hb
      constructor
      · rintro rfl; exact ⟨[], .stop hb, by simp⟩
      · rintro ⟨w, h, rfl⟩
        cases h with
        | stop _ => simp
        | @field _ _ b s f rest w hb' hne hh _ _ =>
          cases s with
          | nil => exact absurd rfl hne
          | cons c s => exact absurd (hb c (by simp)) (hh c rfl)
    rcases hp with rfl | ⟨rfl, rfl⟩
    · simp only [sFields]
      by_cases hs : s.dropWhile isSpace = []
      · rw [if_pos hs, ← hempty ((allBlank_iff s).mpr hs)]
        constructor
        · rintro ⟨q, h⟩
          simp only [ok.injEq, FRes.go.injEq] at h
          exact h.2.symm
        · rintro rfl; exact ⟨_, rfl⟩
      · rw [if_neg hs]
        obtain ⟨b, e1, e2, e3⟩ := (dropSpace_iff s _).mp rfl
        have h0' : 0 ∉ s.dropWhile isSpace := fun hm => h0 ((List.dropWhile_sublist _).subset hm)
        constructor
        · rintro ⟨q, h⟩
          rw [bind_eq_ok] at h
          obtain ⟨r, hr, h⟩ := h
          cases r with
          | bad e u => simp at h
          | go p' u1 =>
            simp only at h
            obtain ⟨rest, hat⟩ : ∃ rest, At p' rest := by
              cases p' with
              | none => exact ⟨[], at_none.mpr rfl⟩
              | some x => exact ⟨x, at_some.mpr rfl⟩
            obtain ⟨f, hf, rfl⟩ := (field_iff hs e3 h0' u rest u1).mp ⟨p', hat, hr⟩
            have hsuf := fieldReads_suffix hf
            obtain ⟨w, hw, rfl⟩ := (ih rest _ u' p' (fun hm => h0' (hsuf.subset hm)) hat).mp ⟨q, h⟩
            refine ⟨f ++ w, ?_, by simp⟩
            rw [e1]
            exact .field e2 hs e3 hf hw
        · rintro ⟨w, h, rfl⟩
          generalize hs0 : s = s0 at h
          cases h with
          | stop hb => subst hs0; exact absurd ((allBlank_iff s).mp hb) hs
          | @field _ _ b' s1 f rest w hb' hne hh hf hw =>
            have : s.dropWhile isSpace = s1 := (dropSpace_iff s s1).mpr ⟨b', hs0, hb', hh⟩
            rw [← this] at hf
            obtain ⟨p', hat, hr⟩ := (field_iff hs e3 h0' u rest _).mpr ⟨f, hf, rfl⟩
            have hsuf := fieldReads_suffix hf
            obtain ⟨q, hq⟩ := (ih rest (u ++ f) (u ++ f ++ w) p' (fun hm => h0' (hsuf.subset hm)) hat).mpr ⟨w, hw, rfl⟩
            refine ⟨q, ?_⟩
            rw [← hs0, hr, ok_bind]
            simp only
            rw [hq, List.append_assoc]
    · simp only [sFields]
      rw [← hempty (by simp)]
      constructor
      · rintro ⟨q, h⟩
        simp only [ok.injEq, FRes.go.injEq] at h
        exact h.2.symm
      · rintro rfl; exact ⟨_, rfl⟩

/-! ## The generic form -/

theorem sGeneric_iff (s : List UInt8) (n : Nat) (u : List UInt8) (k : Nat) (u' : List UInt8) :
    sGeneric s n u = ok (some k, u') ↔ ∃ w, HexRead s w ∧ k = n + w.length ∧ u' = u ++ w := by
  fun_induction sGeneric s n u with
  | case1 n u =>
    constructor
    · intro h
      simp only [ok.injEq, Prod.mk.injEq, Option.some.injEq] at h
      exact ⟨[], .nil, by simp [h.1], by simp [h.2]⟩
    · rintro ⟨w, h, rfl, rfl⟩
      cases h; simp
  | case2 c cs n u hc ih =>
    rw [ih]
    have hc' := (isSpace_iff c).mp hc
    constructor
    · rintro ⟨w, h, rfl, rfl⟩; exact ⟨w, .blank hc' h, rfl, rfl⟩
    · rintro ⟨w, h, rfl, rfl⟩
      cases h with
      | blank _ h => exact ⟨w, h, rfl, rfl⟩
      | pair h => exact absurd hc' h
  | case3 c n u hc =>
    have hc' : ¬ IsBlank c := by rwa [← isSpace_iff]
    constructor
    · intro h; simp at h
    · rintro ⟨w, h, -⟩
      cases h with
      | blank h => exact absurd h hc'
  | case4 c n u hc d s h1 =>
    have hc' : ¬ IsBlank c := by rwa [← isSpace_iff]
    constructor
    · intro h; cases h
    · rintro ⟨w, h, -⟩
      cases h with
      | blank h => exact absurd h hc'
      | pair _ h => rw [← scanfHex2_iff, h1] at h; cases h
  | case5 c n u hc d s h1 =>
    have hc' : ¬ IsBlank c := by rwa [← isSpace_iff]
    constructor
    · intro h; simp at h
    · rintro ⟨w, h, -⟩
      cases h with
      | blank h => exact absurd h hc'
      | pair _ h => rw [← scanfHex2_iff, h1] at h; cases h
  | case6 c n u hc d s b h1 ih =>
    have hc' : ¬ IsBlank c := by rwa [← isSpace_iff]
    rw [ih]
    constructor
    · rintro ⟨w, h, rfl, rfl⟩
      exact ⟨b :: w, .pair hc' ((scanfHex2_iff _ _).mp h1) h, by simp; omega, by simp⟩
    · rintro ⟨w, h, rfl, rfl⟩
      cases h with
      | blank h => exact absurd h hc'
      | pair _ h h' =>
        rw [← scanfHex2_iff, h1] at h
        cases h
        exact ⟨_, h', by simp; omega, by simp⟩

theorem sUnknown_iff (s u u' : List UInt8) : (∃ p, sUnknown s u = ok (.go p u')) ↔ ∃ w, GenericReads s w ∧ u' = u ++ w := by
  unfold sUnknown
  by_cases h2 : s.take 2 = ascii "\\#"
  · rw [if_neg (by simpa using h2)]
    obtain ⟨t, rfl⟩ : ∃ t, s = ascii "\\#" ++ t := ⟨s.drop 2, by rw [← h2, List.take_append_drop]⟩
    have hdrop : (ascii "\\#" ++ t).drop 2 = t := List.drop_left' (by decide)
    have hG : ∀ w, GenericReads (ascii "\\#" ++ t) w ↔ ∃ b ds h, t = b ++ ds ++ h ∧ b ≠ [] ∧ (∀ c ∈ b, IsBlank c) ∧ ds ≠ [] ∧
        (∀ c ∈ ds, IsDigit c) ∧ (∀ c, h.head? = some c → IsBlank c) ∧ HexRead h w ∧ w.length = min (decVal ds) (2 ^ 64 - 1) % 65536 := by
      intro w
      unfold GenericReads
      constructor
      · rintro ⟨b, ds, h, e, rest⟩
        exact ⟨b, ds, h, by simpa using e, rest⟩
      · rintro ⟨b, ds, h, e, rest⟩
        exact ⟨b, ds, h, by simpa using e, rest⟩
    simp only [hdrop, hG]
    by_cases hb : (t.head?.map isSpace).getD false = true
    · rw [if_pos hb]
      obtain ⟨b, e1, e2, e3⟩ := (dropSpace_iff t _).mp rfl
      have hbne : b ≠ [] := by
        rintro rfl
        cases t with
        | nil => simp at hb
        | cons c t =>
          simp only [List.head?_cons, Option.map_some, Option.getD_some] at hb
          rw [List.nil_append] at e1
          exact e3 c (by rw [← e1]; rfl) ((isSpace_iff c).mp hb)
      generalize t.dropWhile isSpace = r at e1 e3 ⊢
      have e4 : r = r.takeWhile (fun c => !isSpace c) ++ r.dropWhile (fun c => !isSpace c) := List.takeWhile_append_dropWhile.symm
      have e5 : ∀ c, (r.dropWhile (fun c => !isSpace c)).head? = some c → IsBlank c := by
        intro c
        have : ∀ l : List UInt8, (l.dropWhile (fun c => !isSpace c)).head? = some c → isSpace c = true := by
          intro l
          induction l with
          | nil => simp
          | cons d l ih =>
            rw [List.dropWhile_cons]
            split
            · exact ih
            · rename_i hd
              intro hm
              simp only [List.head?_cons, Option.some.injEq] at hm
              subst hm
              simpa using hd
        intro hc
        exact (isSpace_iff c).mp (this r hc)
      have e6 : r.drop (r.takeWhile (fun c => !isSpace c)).length = r.dropWhile (fun c => !isSpace c) := by
        have := List.drop_left (l₁ := r.takeWhile (fun c => !isSpace c)) (l₂ := r.dropWhile (fun c => !isSpace c))
        rwa [← e4] at this
      rw [e6]
      have huniq : ∀ b' ds h, t = b' ++ ds ++ h → (∀ c ∈ b', IsBlank c) → ds ≠ [] → (∀ c ∈ ds, IsDigit c) → (∀ c, h.head? = some c → IsBlank c) →
          ds = r.takeWhile (fun c => !isSpace c) ∧ h = r.dropWhile (fun c => !isSpace c) := by
        intro b' ds h et hb' hds hdd hh
        have hr : r = ds ++ h := by
          have h1 := (dropSpace_iff t (ds ++ h)).mpr ⟨b', by rw [et, List.append_assoc], hb', ?_⟩
          · have h2 := (dropSpace_iff t r).mpr ⟨b, e1, e2, e3⟩
            exact h2.symm.trans h1
          · intro c hc
            cases ds with
            | nil => contradiction
            | cons d ds =>
              cases hc
              exact (digit_not_blank (hdd _ (by simp))).1
        rw [hr]
        have p1 : ∀ c ∈ ds, (fun c => !isSpace c) c = true := by
          intro c hc
          have := (digit_not_blank (hdd c hc)).1
          rw [← isSpace_iff] at this
          simpa using this
        have p2 : ∀ c, h.head? = some c → (fun c => !isSpace c) c = false := by
          intro c hc
          have := hh c hc
          rw [← isSpace_iff] at this
          simp [this]
        exact ⟨(takeWhile_app p1 p2).symm, (dropWhile_app p1 p2).symm⟩
      generalize r.takeWhile (fun c => !isSpace c) = ds at e4 huniq ⊢
      generalize r.dropWhile (fun c => !isSpace c) = h at e4 e5 huniq ⊢
      subst e4
      by_cases hdd : ds.all isDigit = true
      · rw [if_pos hdd]
        rw [all_digit] at hdd
        by_cases hds : ds = []
        · subst hds
          have hh : h = [] := by
            cases h with
            | nil => rfl
            | cons c h => exact absurd (e5 c rfl) (e3 c rfl)
          subst hh
          constructor
          · rintro ⟨p, hp⟩; simp [scanfU] at hp
          · rintro ⟨w, ⟨b', ds', h', et, -, hb', hds', hdd', hh', -⟩, -⟩
            exact absurd (huniq _ _ _ et hb' hds' hdd' hh').1 hds'
        · rw [scanfU_num hds hdd e5]
          simp only
          constructor
          · rintro ⟨p, hp⟩
            rw [bind_eq_ok] at hp
            obtain ⟨⟨k, u2⟩, hk, hp⟩ := hp
            simp only at hp
            split at hp
            · rename_i hkk
              subst hkk
              simp only [ok.injEq, FRes.go.injEq] at hp
              obtain ⟨-, rfl⟩ := hp
              obtain ⟨w, hw, hl, rfl⟩ := (sGeneric_iff _ _ _ _ _).mp hk
              exact ⟨w, ⟨b, ds, h, by rw [e1, List.append_assoc], hbne, e2, hds, hdd, e5, hw, by rw [Nat.zero_add] at hl; exact hl.symm⟩, rfl⟩
            · simp at hp
          · rintro ⟨w, ⟨b', ds', h', et, -, hb', hds', hdd', hh', hw, hl⟩, rfl⟩
            obtain ⟨rfl, rfl⟩ := huniq _ _ _ et hb' hds' hdd' hh'
            refine ⟨some [], ?_⟩
            rw [(sGeneric_iff _ _ _ _ _).mpr ⟨w, hw, rfl, rfl⟩, ok_bind]
            simp only
            rw [if_pos (by rw [Nat.zero_add, hl])]
      · rw [if_neg hdd]
        constructor
        · rintro ⟨p, hp⟩; simp at hp
        · rintro ⟨w, ⟨b', ds', h', et, -, hb', hds', hdd', hh', -⟩, -⟩
          rw [← (huniq _ _ _ et hb' hds' hdd' hh').1] at hdd
          exact absurd (all_digit.mpr hdd') hdd
    · rw [if_neg hb]
      constructor
      · rintro ⟨p, hp⟩; simp at hp
      · rintro ⟨w, ⟨b', ds', h', et, hbne, hb', -⟩, -⟩
        refine absurd ?_ hb
        cases b' with
        | nil => contradiction
        | cons c b' =>
          rw [et]
          simp [(isSpace_iff c).mpr (hb' c (by simp))]
  · rw [if_pos (by simpa using h2)]
    constructor
    · rintro ⟨p, hp⟩; simp at hp
    · rintro ⟨w, ⟨b, ds, h, rfl, -⟩, -⟩
      refine absurd ?_ h2
      rw [List.append_assoc, List.append_assoc, List.take_left' (by decide)]

theorem sUnknown_noBad (s u : List UInt8) : (sUnknown s u).NoBad := by
  unfold sUnknown Outcome.NoBad
  intro x
  repeat' (first | split | simp only)
  all_goals try simp
  rw [bind_eq_ok]
  rintro ⟨r, -, h⟩
  split at h <;> simp at h

end Wdns
