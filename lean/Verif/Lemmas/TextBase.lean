import Verif.Lemmas.Be
import Verif.Model.ToText
import Verif.Spec.RdataText
import Verif.Lemmas.Base64
import Verif.Lemmas.Base32
import Verif.Lemmas.Numerals
import Verif.Lemmas.Inet
import Verif.Lemmas.Tables
import Verif.Lemmas.NameText
import Verif.Props.Tables

/-! Helper lemmas: the building blocks of rendering rdata as text, and that all of them are printable. -/

namespace Wdns
open Outcome Spec

/-! ### printable texts -/

theorem Spec.Printable.append {a b : List UInt8} (h : Printable a) (h' : Printable b) : Printable (a ++ b) := by
  intro x hx
  rcases List.mem_append.mp hx with hx | hx
  · exact h x hx
  · exact h' x hx

theorem Spec.Printable.left {a b : List UInt8} (h : Printable (a ++ b)) : Printable a := fun x hx => h x (by simp [hx])
theorem Spec.Printable.right {a b : List UInt8} (h : Printable (a ++ b)) : Printable b := fun x hx => h x (by simp [hx])

theorem Spec.Printable.flatMap {α : Type} {l : List α} {f : α → List UInt8} (h : ∀ x ∈ l, Printable (f x)) : Printable (l.flatMap f) := by
  intro b hb
  obtain ⟨x, hx, hb⟩ := List.mem_flatMap.mp hb
  exact h x hx b hb

theorem Spec.Printable.intercalate {sep : List UInt8} {l : List (List UInt8)} (hs : Printable sep) (h : ∀ x ∈ l, Printable x) :
    Printable (List.intercalate sep l) := by
  induction l with
  | nil => intro b hb; simp [List.intercalate] at hb
  | cons a l ih =>
    cases l with
    | nil => simpa [List.intercalate] using h a (by simp)
    | cons c l =>
      have := ih (fun x hx => h x (by simp [hx]))
      rw [List.intercalate, List.intersperse_cons_cons, List.flatten_cons, List.flatten_cons]
      exact (h a (by simp)).append (hs.append this)

theorem printable_nil : Printable [] := by intro b hb; simp at hb

theorem printable_cons {a : UInt8} {l : List UInt8} (h : Printable [a]) (h' : Printable l) : Printable (a :: l) := h.append h'

/-! ### plain texts -/

theorem Spec.Plain.append {a b : List UInt8} (h : Plain a) (h' : Plain b) : Plain (a ++ b) := by
  intro x hx
  rcases List.mem_append.mp hx with hx | hx
  · exact h x hx
  · exact h' x hx

theorem Spec.Plain.left {a b : List UInt8} (h : Plain (a ++ b)) : Plain a := fun x hx => h x (by simp [hx])
theorem Spec.Plain.right {a b : List UInt8} (h : Plain (a ++ b)) : Plain b := fun x hx => h x (by simp [hx])

theorem Spec.Plain.flatMap {α : Type} {l : List α} {f : α → List UInt8} (h : ∀ x ∈ l, Plain (f x)) : Plain (l.flatMap f) := by
  intro b hb
  obtain ⟨x, hx, hb⟩ := List.mem_flatMap.mp hb
  exact h x hx b hb

theorem Spec.Plain.intercalate {sep : List UInt8} {l : List (List UInt8)} (hs : Plain sep) (h : ∀ x ∈ l, Plain x) :
    Plain (List.intercalate sep l) := by
  induction l with
  | nil => intro b hb; simp [List.intercalate] at hb
  | cons a l ih =>
    cases l with
    | nil => simpa [List.intercalate] using h a (by simp)
    | cons c l =>
      have := ih (fun x hx => h x (by simp [hx]))
      rw [List.intercalate, List.intersperse_cons_cons, List.flatten_cons, List.flatten_cons]
      exact (h a (by simp)).append (hs.append this)

theorem plain_nil : Plain [] := by intro b hb; simp at hb

theorem plain_decText (n : Nat) : Plain (decText n) := by
  intro b hb
  have := (decText_isDecimal n).2.1 b hb
  unfold IsDigit at this
  omega

theorem plain_hexDigit (u : Bool) {v : Nat} (h : v < 16) : Plain [hexDigit u v] := by
  have : ∀ v < 16, ∀ u : Bool, Plain [hexDigit u v] := by decide +kernel
  exact this v h u

theorem plain_hexText (u : Bool) (bs : List UInt8) : Plain (hexText u bs) := by
  unfold hexText
  refine Plain.flatMap fun b _ => ?_
  have hb := b.toNat_lt
  have h1 := plain_hexDigit u (v := b.toNat / 16) (by omega)
  have h2 := plain_hexDigit u (v := b.toNat % 16) (by omega)
  exact h1.append h2

theorem plain_b64 : ∀ v < 64, Plain [b64Char v] := by decide +kernel
theorem plain_b32 : ∀ v < 32, Plain [b32Char v] := by decide +kernel

theorem plain_cons {a : UInt8} {l : List UInt8} (h : Plain [a]) (h' : Plain l) : Plain (a :: l) := h.append h'

theorem plain_base64 (s : List UInt8) : Plain (base64 s) := by
  fun_induction base64 s with
  | case1 => exact plain_nil
  | case2 a =>
    have := a.toNat_lt
    exact plain_cons (plain_b64 _ (by omega)) (plain_cons (plain_b64 _ (by omega)) (by decide))
  | case3 a b =>
    have := a.toNat_lt
    have := b.toNat_lt
    exact plain_cons (plain_b64 _ (by omega)) (plain_cons (plain_b64 _ (by omega))
      (plain_cons (plain_b64 _ (by omega)) (by decide)))
  | case4 a b c rest ih =>
    have := a.toNat_lt
    have := b.toNat_lt
    have := c.toNat_lt
    exact plain_cons (plain_b64 _ (by omega)) (plain_cons (plain_b64 _ (by omega))
      (plain_cons (plain_b64 _ (by omega)) (plain_cons (plain_b64 _ (by omega)) ih)))

theorem plain_base32 (s : List UInt8) : Plain (base32 s) := by
  rw [(base32_vals s).1]
  intro b hb
  obtain ⟨v, hv, rfl⟩ := List.mem_map.mp hb
  exact plain_b32 v ((base32_vals s).2 v hv) _ (by simp)

theorem plain_dottedQuad (a b c d : UInt8) : Plain (dottedQuad a b c d) := by
  unfold dottedQuad
  have h : Plain [46] := by decide
  exact ((((((plain_decText _).append h).append (plain_decText _)).append h).append (plain_decText _)).append h).append
    (plain_decText _)

theorem plain_hexWord {w : Nat} (h : w < 65536) : Plain (hexWord w) := by
  unfold hexWord
  have hd (v : Nat) (hv : v < 16) := plain_hexDigit false hv
  split
  · exact hd _ (by omega)
  split
  · exact plain_cons (hd _ (by omega)) (hd _ (by omega))
  split
  · exact plain_cons (hd _ (by omega)) (plain_cons (hd _ (by omega)) (hd _ (by omega)))
  · exact plain_cons (hd _ (by omega)) (plain_cons (hd _ (by omega)) (plain_cons (hd _ (by omega)) (hd _ (by omega))))

theorem words16_lt (s : List UInt8) : ∀ w ∈ words16 s, w < 65536 := by
  fun_induction words16 s with
  | case1 a b rest ih =>
    intro w hw
    rcases List.mem_cons.mp hw with rfl | hw
    · exact be16_lt a b
    · exact ih w hw
  | case2 => simp

theorem plain_wordsText {ws : List Nat} (h : ∀ w ∈ ws, w < 65536) : Plain (wordsText ws) := by
  unfold wordsText
  refine Plain.intercalate (by decide) ?_
  intro x hx
  obtain ⟨w, hw, rfl⟩ := List.mem_map.mp hx
  exact plain_hexWord (h w hw)

theorem plain_ip6Text (a : List UInt8) : Plain (ip6Text a) := by
  unfold ip6Text
  have hw := words16_lt a
  have h58 : Plain [58, 58] := by decide
  simp only
  split
  · exact plain_wordsText hw
  · split
    · exact h58.append (plain_dottedQuad _ _ _ _)
    split
    · exact ((h58.append (plain_hexWord (by omega))).append (by decide)).append (plain_dottedQuad _ _ _ _)
    · exact ((plain_wordsText fun w h => hw w (List.mem_of_mem_take h)).append h58).append
        (plain_wordsText fun w h => hw w (List.mem_of_mem_drop h))

theorem plain_mnemonics : ∀ e ∈ rrtypeCases, Plain e.2 := by decide +kernel
theorem plain_classes : ∀ e ∈ rrclassCases, Plain e.2 := by decide +kernel

theorem plain_rrtype {t : Nat} {s : List UInt8} (h : rrtypeToStr t = some s) : Plain s := by
  obtain ⟨e, he, rfl, rfl⟩ : ∃ e ∈ rrtypeCases, e.1 = t ∧ e.2 = s := by
    have := switchOf_mem h
    exact ⟨(t, s), this, rfl, rfl⟩
  exact plain_mnemonics e he

theorem plain_typeText (t : Nat) : Plain (typeText t) := by
  unfold typeText
  cases h : rrtypeToStr t with
  | some s => exact plain_rrtype h
  | none => exact (show Plain (ascii "TYPE") by decide).append (plain_decText t)

theorem plain_keyText (k : Nat) : Plain (keyText k) := by
  unfold keyText
  split
  all_goals first
    | decide
    | exact (show Plain (ascii "key") by decide).append (plain_decText _)

/-! ### graphic texts -/

theorem Spec.Graphic.append {a b : List UInt8} (h : Graphic a) (h' : Graphic b) : Graphic (a ++ b) := by
  intro x hx
  rcases List.mem_append.mp hx with hx | hx
  · exact h x hx
  · exact h' x hx

theorem Spec.Graphic.left {a b : List UInt8} (h : Graphic (a ++ b)) : Graphic a := fun x hx => h x (by simp [hx])
theorem Spec.Graphic.right {a b : List UInt8} (h : Graphic (a ++ b)) : Graphic b := fun x hx => h x (by simp [hx])

theorem Spec.Graphic.flatMap {α : Type} {l : List α} {f : α → List UInt8} (h : ∀ x ∈ l, Graphic (f x)) : Graphic (l.flatMap f) := by
  intro b hb
  obtain ⟨x, hx, hb⟩ := List.mem_flatMap.mp hb
  exact h x hx b hb

theorem Spec.Graphic.intercalate {sep : List UInt8} {l : List (List UInt8)} (hs : Graphic sep) (h : ∀ x ∈ l, Graphic x) :
    Graphic (List.intercalate sep l) := by
  induction l with
  | nil => intro b hb; simp [List.intercalate] at hb
  | cons a l ih =>
    cases l with
    | nil => simpa [List.intercalate] using h a (by simp)
    | cons c l =>
      have := ih (fun x hx => h x (by simp [hx]))
      rw [List.intercalate, List.intersperse_cons_cons, List.flatten_cons, List.flatten_cons]
      exact (h a (by simp)).append (hs.append this)

theorem graphic_nil : Graphic [] := by intro b hb; simp at hb

theorem graphic_cons {a : UInt8} {l : List UInt8} (h : Graphic [a]) (h' : Graphic l) : Graphic (a :: l) := h.append h'

theorem Spec.Plain.graphic {t : List UInt8} (h : Plain t) : Graphic t := fun b hb => ⟨(h b hb).1, (h b hb).2.1⟩

theorem graphic_decText (n : Nat) : Graphic (decText n) := (plain_decText n).graphic
theorem graphic_hexText (u : Bool) (bs : List UInt8) : Graphic (hexText u bs) := (plain_hexText u bs).graphic
theorem graphic_base64 (s : List UInt8) : Graphic (base64 s) := (plain_base64 s).graphic
theorem graphic_base32 (s : List UInt8) : Graphic (base32 s) := (plain_base32 s).graphic
theorem graphic_dottedQuad (a b c d : UInt8) : Graphic (dottedQuad a b c d) := (plain_dottedQuad a b c d).graphic
theorem graphic_ip6Text (a : List UInt8) : Graphic (ip6Text a) := (plain_ip6Text a).graphic
theorem graphic_rrtype {t : Nat} {s : List UInt8} (h : rrtypeToStr t = some s) : Graphic s := (plain_rrtype h).graphic
theorem graphic_typeText (t : Nat) : Graphic (typeText t) := (plain_typeText t).graphic
theorem graphic_keyText (k : Nat) : Graphic (keyText k) := (plain_keyText k).graphic

theorem graphic_ddd (c : UInt8) : Graphic [92, UInt8.ofNat (48 + c.toNat / 100), UInt8.ofNat (48 + c.toNat / 10 % 10), UInt8.ofNat (48 + c.toNat % 10)] := by
  have h : ∀ n < 256, Graphic [92, UInt8.ofNat (48 + n / 100), UInt8.ofNat (48 + n / 10 % 10), UInt8.ofNat (48 + n % 10)] := by decide +kernel
  exact h c.toNat c.toNat_lt

theorem graphic_escByte (c : UInt8) : Graphic (escByte c) := by
  unfold escByte
  split
  · intro b hb
    simp only [List.mem_cons, List.not_mem_nil, or_false] at hb
    rcases hb with rfl | rfl
    · decide
    · omega
  split
  · intro b hb
    simp only [List.mem_cons, List.not_mem_nil, or_false] at hb
    subst hb
    omega
  · exact graphic_ddd c

theorem graphic_nameText (n : Name) : Graphic (nameText n) := by
  unfold nameText
  split
  · decide
  · refine Graphic.flatMap fun l _ => ?_
    exact (Graphic.flatMap fun c _ => graphic_escByte c).append (by decide)

theorem Spec.Graphic.printable {t : List UInt8} (h : Graphic t) : Printable t := fun b hb => ⟨by have := (h b hb).1; omega, (h b hb).2⟩

theorem Spec.Graphic.no_space {t : List UInt8} (h : Graphic t) : ∀ b ∈ t, b ≠ 32 := by
  intro b hb h32
  have := h b hb
  subst h32
  simp at this

theorem printable_decText (n : Nat) : Printable (decText n) := (graphic_decText n).printable
theorem printable_hexText (u : Bool) (bs : List UInt8) : Printable (hexText u bs) := (graphic_hexText u bs).printable
theorem printable_base64 (s : List UInt8) : Printable (base64 s) := (graphic_base64 s).printable
theorem printable_base32 (s : List UInt8) : Printable (base32 s) := (graphic_base32 s).printable
theorem printable_dottedQuad (a b c d : UInt8) : Printable (dottedQuad a b c d) := (graphic_dottedQuad a b c d).printable
theorem printable_ip6Text (a : List UInt8) : Printable (ip6Text a) := (graphic_ip6Text a).printable
theorem printable_ddd (c : UInt8) : Printable [92, UInt8.ofNat (48 + c.toNat / 100), UInt8.ofNat (48 + c.toNat / 10 % 10), UInt8.ofNat (48 + c.toNat % 10)] :=
  (graphic_ddd c).printable
theorem printable_nameText (n : Name) : Printable (nameText n) := (graphic_nameText n).printable
theorem printable_rrtype {t : Nat} {s : List UInt8} (h : rrtypeToStr t = some s) : Printable s := (graphic_rrtype h).printable
theorem printable_typeText (t : Nat) : Printable (typeText t) := (graphic_typeText t).printable
theorem printable_keyText (k : Nat) : Printable (keyText k) := (graphic_keyText k).printable

theorem printable_charText (c : UInt8) : Printable (charText c) := by
  unfold charText
  split
  · rename_i h
    intro b hb
    simp only [List.mem_cons, List.not_mem_nil, or_false] at hb
    rcases hb with rfl | rfl
    · decide
    · omega
  split
  · intro b hb
    simp only [List.mem_cons, List.not_mem_nil, or_false] at hb
    subst hb
    assumption
  · exact printable_ddd c

theorem printable_quoted (s : List UInt8) : Printable (quoted s) := by
  unfold quoted
  exact ((show Printable [34] by decide).append (Printable.flatMap fun c _ => printable_charText c)).append (by decide)

theorem keyText_eq (k : Nat) : svcparamkeyToStr k = if k = 65535 then ascii "invalid key" else keyText k := by
  have h : ∀ k < 7, svcparamkeyToStr k = keyText k := by decide +kernel
  by_cases h7 : k < 7
  · rw [h k h7, if_neg (by omega)]
  · have hs : switchOf svcKeyNames k = none := by
      unfold switchOf
      have : svcKeyNames.find? (fun e => e.1 = k) = none := by
        rw [List.find?_eq_none]
        intro e he
        have : e.1 < 7 := (show ∀ e ∈ svcKeyNames, e.1 < 7 by decide) e he
        simp; omega
      simp [this]
    unfold svcparamkeyToStr
    rw [hs]
    by_cases hk : k = 65535
    · simp [hk]
    · simp only [hk, if_false]
      rw [fmtU_eq]
      obtain ⟨j, rfl⟩ : ∃ j, k = j + 7 := ⟨k - 7, by omega⟩
      rfl

/-! ### a buffer without trailing NUL -/

/-- The last octet of the buffer is not NUL. -/
def Clean (u : List UInt8) : Prop := u.getLast? ≠ some 0

theorem Clean.nil : Clean [] := by simp [Clean]

theorem uAddCstr_clean {u : List UInt8} (h : Clean u) (s : List UInt8) : uAddCstr u s = u ++ s := by
  unfold uAddCstr stripLast
  rw [if_neg h]

theorem Clean.append {u s : List UInt8} (h : Clean u) (hs : Printable s) : Clean (u ++ s) := by
  unfold Clean at *
  rw [List.getLast?_append]
  cases hl : s.getLast? with
  | none => simpa using h
  | some x =>
    have := hs x (List.mem_of_getLast? hl)
    simp only [Option.some_or, ne_eq, Option.some.injEq]
    intro hx
    subst hx
    simp at this

/-! ### pieces -/

theorem escDDD_eq (c : UInt8) : escDDD c = ok [92, UInt8.ofNat (48 + c.toNat / 100), UInt8.ofNat (48 + c.toNat / 10 % 10), UInt8.ofNat (48 + c.toNat % 10)] := by
  have h : ∀ n < 256, escDDD (UInt8.ofNat n) = ok [92, UInt8.ofNat (48 + n / 100), UInt8.ofNat (48 + n / 10 % 10), UInt8.ofNat (48 + n % 10)] := by
    decide +kernel
  have := h c.toNat c.toNat_lt
  rwa [u8_ofNat_toNat] at this

theorem strByte_eq (c : UInt8) : strByte c = ok (charText c) := by
  unfold strByte charText
  by_cases h1 : c.toNat = 34
  · have : c = 34 := UInt8.toNat_inj.mp h1
    simp [this]
  by_cases h2 : c.toNat = 92
  · have : c = 92 := UInt8.toNat_inj.mp h2
    simp [this]
  simp only [h1, h2, if_false, or_self, escDDD_eq]
  split <;> rfl

theorem strUnquoted_eq (bs : List UInt8) : ∀ u, strUnquoted bs u = ok (u ++ bs.flatMap charText) := by
  induction bs with
  | nil => intro u; simp [strUnquoted]
  | cons c cs ih => intro u; simp [strUnquoted, strByte_eq, ih, List.append_assoc]

theorem strQuoted_eq (bs u : List UInt8) : strQuoted bs u = ok (u ++ (quoted bs ++ [32])) := by
  simp [strQuoted, strUnquoted_eq, quoted]

theorem hexByte_eq (u : Bool) {n : Nat} (h : 3 ≤ n) (b : UInt8) : hexByte u n b = ok (hexText u [b]) := by
  unfold hexByte
  rw [bytesToHexStr_eq _ _ (by omega)]
  have : (n - 1) / 2 = ((n - 1) / 2 - 1) + 1 := by omega
  rw [this]
  have hb := b.toNat_lt
  simp only [List.take_succ_cons, List.take_nil, List.flatMap_cons, List.flatMap_nil, List.append_nil, hexText]
  have e : ∀ n < 256, ∀ u : Bool, byteToHex (UInt8.ofNat n) u = [hexDigit u (n / 16), hexDigit u (n % 16)] := by decide +kernel
  have := e b.toNat hb u
  rw [u8_ofNat_toNat] at this
  rw [this]

theorem hexRun_eq (up : Bool) {n : Nat} (h : 3 ≤ n) (sep bs : List UInt8) : ∀ u,
    hexRun up n sep bs u = ok (u ++ bs.flatMap fun b => hexText up [b] ++ sep) := by
  induction bs with
  | nil => intro u; simp [hexRun]
  | cons c cs ih => intro u; simp [hexRun, hexByte_eq up h, ih, List.append_assoc]

theorem hexText_flatMap (up : Bool) (bs : List UInt8) : (bs.flatMap fun b => hexText up [b] ++ []) = hexText up bs := by
  simp [hexText]

theorem intercalate_cons_cons {sep a b : List UInt8} {l : List (List UInt8)} :
    List.intercalate sep (a :: b :: l) = a ++ (sep ++ List.intercalate sep (b :: l)) := by
  rw [List.intercalate, List.intersperse_cons_cons, List.flatten_cons, List.flatten_cons]; rfl

theorem intercalate_one {sep a : List UInt8} : List.intercalate sep [a] = a := by simp [List.intercalate]
theorem intercalate_nil {sep : List UInt8} : List.intercalate sep ([] : List (List UInt8)) = [] := by simp [List.intercalate]

theorem euiRun_false (bs : List UInt8) : ∀ u, euiRun false bs u = ok (u ++ bs.flatMap fun b => 45 :: hexText false [b]) := by
  induction bs with
  | nil => intro u; simp [euiRun]
  | cons c cs ih => intro u; simp [euiRun, hexByte_eq, ih, List.append_assoc]

theorem flatMap_sep (sep : List UInt8) (f : UInt8 → List UInt8) : ∀ (bs : List UInt8) b,
    f b ++ bs.flatMap (fun b => sep ++ f b) = List.intercalate sep ((b :: bs).map f) := by
  intro bs
  induction bs with
  | nil => intro b; simp [intercalate_one]
  | cons c cs ih =>
    intro b
    have := ih c
    simp only [List.map_cons] at this ⊢
    rw [intercalate_cons_cons, ← this]
    simp

theorem euiRun_eq (bs u : List UInt8) (h : bs ≠ []) :
    euiRun true bs u = ok (u ++ List.intercalate [45] (bs.map fun b => hexText false [b])) := by
  cases bs with
  | nil => exact absurd rfl h
  | cons b bs =>
    rw [← flatMap_sep]
    simp only [euiRun, hexByte_eq _ (Nat.le_refl 3), ok_bind, euiRun_false, if_true]
    simp

end Wdns
