import Verif.Lemmas.FromText
import Verif.Props.Format
import Verif.Props.Tables
import Verif.Props.RdataText

/-! Helper lemmas: scanning the pieces `wdns_rdata_to_str` writes. -/

namespace Wdns
open Outcome Spec

/-- What may follow a token: nothing, or a space. -/
def Sep (rest : List UInt8) : Prop := rest = [] ∨ rest.head? = some 32

theorem Sep.nil : Sep [] := Or.inl rfl
theorem Sep.cons {r : List UInt8} : Sep (32 :: r) := Or.inr rfl

theorem Sep.head {r : List UInt8} (h : Sep r) {c : UInt8} (hc : r.head? = some c) : c = 32 := by
  rcases h with rfl | h
  · simp at hc
  · rw [h] at hc; cases hc; rfl

theorem isSpace_graphic {c : UInt8} (h : 33 ≤ c.toNat) : isSpace c = false := by
  unfold isSpace
  have : c ≠ 32 := by intro e; subst e; simp at h
  simp [this]; omega

theorem isDelim_graphic {c : UInt8} (h : 33 ≤ c.toNat) : isDelim c = false := by
  unfold isDelim
  have a1 : c ≠ 32 := by intro e; subst e; simp at h
  have a2 : c ≠ 9 := by intro e; subst e; simp at h
  have a3 : c ≠ 13 := by intro e; subst e; simp at h
  have a4 : c ≠ 10 := by intro e; subst e; simp at h
  simp [*]

theorem takeWhile_app {p : UInt8 → Bool} {t rest : List UInt8} (h : ∀ c ∈ t, p c = true) (hr : ∀ c, rest.head? = some c → p c = false) :
    (t ++ rest).takeWhile p = t := by
  induction t with
  | nil =>
    cases rest with
    | nil => rfl
    | cons c r => simp [hr c rfl]
  | cons c t ih =>
    rw [List.cons_append, List.takeWhile_cons, if_pos (h c (by simp)), ih fun c hc => h c (by simp [hc])]

theorem dropWhile_app {p : UInt8 → Bool} {t rest : List UInt8} (h : ∀ c ∈ t, p c = true) (hr : ∀ c, rest.head? = some c → p c = false) :
    (t ++ rest).dropWhile p = rest := by
  induction t with
  | nil =>
    cases rest with
    | nil => rfl
    | cons c r => simp [hr c rfl]
  | cons c t ih =>
    rw [List.cons_append, List.dropWhile_cons, if_pos (h c (by simp)), ih fun c hc => h c (by simp [hc])]

theorem sep_delim {rest : List UInt8} (hs : Sep rest) : ∀ c, rest.head? = some c → (!isDelim c) = false := by
  intro c hc
  rw [hs.head hc]; rfl

theorem tokOf_app {t rest : List UInt8} (h : Graphic t) (hs : Sep rest) : tokOf (t ++ rest) = t :=
  takeWhile_app (fun c hc => by simp [isDelim_graphic (h c hc).1]) (sep_delim hs)

theorem afterTok_app {t rest : List UInt8} (h : Graphic t) (hs : Sep rest) : afterTok (t ++ rest) = rest :=
  dropWhile_app (fun c hc => by simp [isDelim_graphic (h c hc).1]) (sep_delim hs)

/-- A place in the text: `rest`, where a NULL pointer stands for the end. -/
def At (p : Option (List UInt8)) (rest : List UInt8) : Prop := p = some rest ∨ (p = none ∧ rest = [])

theorem At.some {rest : List UInt8} : At (some rest) rest := Or.inl rfl
theorem At.none : At none [] := Or.inr ⟨rfl, rfl⟩

theorem endPtr_app {t rest : List UInt8} (h : Graphic t) (hs : Sep rest) : At (endPtr (t ++ rest)) rest := by
  unfold endPtr
  rw [afterTok_app h hs]
  split
  · rename_i h; subst h; exact At.none
  · exact At.some

theorem endPtr_nil {t : List UInt8} (h : Graphic t) : endPtr t = none := by
  have := afterTok_app h Sep.nil
  rw [List.append_nil] at this
  rw [endPtr, this, if_pos rfl]

theorem dropSpace_graphic {t rest : List UInt8} (h : Graphic t) (ht : t ≠ []) : (t ++ rest).dropWhile isSpace = t ++ rest := by
  cases t with
  | nil => exact absurd rfl ht
  | cons c t => simp [isSpace_graphic (h c (by simp)).1]

theorem isDigit_iff (c : UInt8) : isDigit c = true ↔ IsDigit c := by unfold isDigit IsDigit; simp

theorem decText_digits (n : Nat) : (decText n).all isDigit = true := by
  rw [List.all_eq_true]
  exact fun c hc => (isDigit_iff c).mpr ((decText_isDecimal n).2.1 c hc)

theorem decText_ne_nil (n : Nat) : decText n ≠ [] := (decText_isDecimal n).1

theorem sep_notDigit {rest : List UInt8} (hs : Sep rest) : ∀ c, rest.head? = some c → ¬ IsDigit c := by
  intro c hc
  rw [hs.head hc]; decide

theorem scanfU_dec (bits : Nat) {n : Nat} {rest : List UInt8} (hs : Sep rest) (hn : n < 2 ^ 64) :
    scanfU bits (decText n ++ rest) = .val (n % 2 ^ bits) := by
  unfold scanfU
  rw [dropSpace_graphic (graphic_decText n) (decText_ne_nil n), if_neg (by simp [decText_ne_nil]),
    scanInt_dec (decText_isDecimal n) rest (sep_notDigit hs)]
  simp only
  rw [if_neg (by omega), if_neg (by simp)]

theorem hexDigit_facts : ∀ v < 16, ∀ up : Bool, isSpace (hexDigit up v) = false ∧ hexDigit up v ≠ 45 ∧ hexDigit up v ≠ 43 ∧
    hexDigitValue (hexDigit up v) = some v := by decide +kernel

theorem scanfHex2_hex (up : Bool) (b : UInt8) (rest : List UInt8) :
    scanfHex2 (hexDigit up (b.toNat / 16) :: hexDigit up (b.toNat % 16) :: rest) = .val b := by
  have hb := u8_lt b
  obtain ⟨h1, h2, h3, h4⟩ := hexDigit_facts (b.toNat / 16) (by omega) up
  obtain ⟨-, -, -, h8⟩ := hexDigit_facts (b.toNat % 16) (by omega) up
  unfold scanfHex2
  rw [List.dropWhile_cons, if_neg (by simp [h1])]
  simp only [h2, h3, or_self, if_false, h4, List.head?_cons, Option.bind_some, h8]
  rw [show 16 * (b.toNat / 16) + b.toNat % 16 = b.toNat by omega, u8_ofNat_toNat]

theorem hexText_cons (up : Bool) (b : UInt8) (s : List UInt8) :
    hexText up (b :: s) = hexDigit up (b.toNat / 16) :: hexDigit up (b.toNat % 16) :: hexText up s := by
  simp [hexText]

theorem sBytes_hex (up : Bool) (s : List UInt8) : ∀ u, sBytes (hexText up s) u = ok (.go (some []) (u ++ s)) := by
  induction s with
  | nil => intro u; simp [hexText, sBytes]
  | cons b s ih =>
    intro u
    rw [hexText_cons, sBytes, scanfHex2_hex]
    simp only
    rw [ih, List.append_assoc]; rfl

theorem sSalt_hex (up : Bool) (s rest : List UInt8) : ∀ u, sSalt s.length (hexText up s ++ rest) u = ok (.go (some rest) (u ++ s)) := by
  induction s with
  | nil => intro u; simp [hexText, sSalt]
  | cons b s ih =>
    intro u
    rw [hexText_cons, List.length_cons, sSalt]
    simp only [List.cons_append]
    rw [scanfHex2_hex]
    simp only [List.drop_succ_cons, List.drop_zero]
    rw [ih, List.append_assoc]; rfl

theorem sGeneric_space {c : UInt8} (cs : List UInt8) (n : Nat) (u : List UInt8) (h : isSpace c = true) :
    sGeneric (c :: cs) n u = sGeneric cs n u := by
  rw [sGeneric.eq_def]; simp [h]

theorem sGeneric_hex (s : List UInt8) : ∀ n u, sGeneric (s.flatMap fun b => hexText false [b] ++ [32]) n u = ok (some (n + s.length), u ++ s) := by
  induction s with
  | nil => intro n u; simp [sGeneric]
  | cons b s ih =>
    intro n u
    have hb := u8_lt b
    have h1 := (hexDigit_facts (b.toNat / 16) (by omega) false).1
    have h2 : isSpace 32 = true := rfl
    simp only [List.flatMap_cons, hexText, List.flatMap_nil, List.append_nil, List.cons_append, List.nil_append]
    rw [sGeneric, if_neg (by simp [h1]), scanfHex2_hex]
    simp only
    rw [sGeneric_space _ _ _ h2]
    have := ih (n + 1) (u ++ [b])
    simp only [hexText, List.flatMap_cons, List.flatMap_nil, List.append_nil, List.cons_append, List.nil_append] at this
    rw [this]
    simp only [List.length_cons, List.append_assoc, List.cons_append, List.nil_append]
    rw [show n + 1 + s.length = n + (s.length + 1) by omega]

end Wdns
