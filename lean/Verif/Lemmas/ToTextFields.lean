import Verif.Lemmas.ToText

/-! Helper lemmas: rendering one field of conforming rdata, and all fields. -/

namespace Wdns
open Outcome Spec

/-! ### strings -/

theorem tString_eq {mem : List UInt8} {src : Nat} {s rest u : List UInt8} (hs : s.length < 256) (hw : Win mem src (encString s ++ rest)) :
    tString mem ⟨src, ((encString s ++ rest).length : Nat), u⟩ =
      ok (.go ⟨src + (encString s).length, (rest.length : Nat), u ++ (quoted s ++ [32])⟩) := by
  have hlen : (encString s ++ rest).length = 1 + s.length + rest.length := by simp [encString]; omega
  have hlen2 : (encString s).length = 1 + s.length := by simp [encString]; omega
  have hwin : Win mem src (UInt8.ofNat s.length :: (s ++ rest)) := by simpa [encString] using hw
  have e0 := hwin.rd
  have e1 := hwin.tail.left.rdN rfl
  have hl := toNat_ofNat_lt hs
  rw [hlen, hlen2]
  simp only [tString, need]
  rw [if_neg (by omega), e0, ok_bind]
  simp only [hl]
  rw [if_neg (by omega), e1, ok_bind, strQuoted_eq, ok_bind]
  have a1 : ((1 + s.length + rest.length : Nat) : Int) - 1 - (s.length : Int) = (rest.length : Nat) := by omega
  have a2 : src + 1 + s.length = src + (1 + s.length) := by omega
  simp only [a1, a2]

theorem tRepstring_eq {mem : List UInt8} (ss : List (List UInt8)) : ∀ (src fuel : Nat) (u : List UInt8),
    (∀ s ∈ ss, s.length < 256) → Win mem src (ss.flatMap encString) → ss.length < fuel →
    tRepstring mem fuel ⟨src, ((ss.flatMap encString).length : Nat), u⟩ =
      ok (.go ⟨src + (ss.flatMap encString).length, 0, u ++ emit (ss.map quoted)⟩) := by
  induction ss with
  | nil =>
    intro src fuel u _ _ hf
    obtain ⟨f, rfl⟩ : ∃ f, fuel = f + 1 := ⟨fuel - 1, by simp at hf; omega⟩
    simp [tRepstring, emit]
  | cons s ss ih =>
    intro src fuel u hs hw hf
    obtain ⟨f, rfl⟩ : ∃ f, fuel = f + 1 := ⟨fuel - 1, by simp at hf; omega⟩
    rw [List.flatMap_cons] at hw ⊢
    rw [tRepstring]
    have hpos : (encString s ++ ss.flatMap encString).length > 0 := by simp [encString]
    simp only
    rw [if_pos (by omega), tString_eq (hs s (by simp)) hw, ok_bind]
    simp only
    rw [ih _ _ _ (fun x hx => hs x (by simp [hx])) hw.right (by simp at hf; omega)]
    simp [emit, Nat.add_assoc]

/-! ### type bitmaps -/

theorem typeTok_eq {u : List UInt8} (hu : Clean u) (t : Nat) : typeTok u t = u ++ (typeText t ++ [32]) := by
  unfold typeTok typeText
  cases h : rrtypeToStr t with
  | some s => simp [uAddCstr_clean hu]
  | none => simp [uAddCstr_clean hu, fmtU_eq]

theorem foldl_typeTok (l : List Nat) : ∀ {u : List UInt8}, Clean u → l.foldl typeTok u = u ++ emit (l.map typeText) := by
  induction l with
  | nil => intro u _; simp [emit]
  | cons t l ih =>
    intro u hu
    rw [List.foldl_cons, typeTok_eq hu, ih (hu.append ((printable_typeText t).append (by decide)))]
    simp [emit]

theorem typesOfByte_eq {win lo : Nat} (a : UInt8) (hl : lo + 8 ≤ 256) :
    typesOfByte win lo a = ((List.range 8).filter fun j => decide (a.toNat / 2 ^ (7 - j) % 2 = 1)).map fun j => win * 256 + (lo + j) := by
  unfold typesOfByte
  have hbit : ∀ n < 256, ∀ j < 8, (n &&& (1 <<< (7 - j)) ≠ 0) ↔ (n / 2 ^ (7 - j) % 2 = 1) := by decide +kernel
  have hor : ∀ j < 8, (win <<< 8) ||| (lo + j) = win * 256 + (lo + j) := by
    intro j hj
    rw [← Nat.shiftLeft_add_eq_or_of_lt (by omega), Nat.shiftLeft_eq]
  generalize hr : List.range 8 = r
  have hmem : ∀ j ∈ r, j < 8 := by intro j hj; rw [← hr] at hj; exact List.mem_range.mp hj
  clear hr
  induction r with
  | nil => rfl
  | cons j r ih =>
    have hj := hmem j (by simp)
    have := ih (fun j hj => hmem j (by simp [hj]))
    have hb := hbit a.toNat a.toNat_lt j hj
    by_cases h : a.toNat / 2 ^ (7 - j) % 2 = 1
    · have h' := hb.mpr h
      rw [List.filterMap_cons, List.filter_cons]
      simp only [h', h, if_true, decide_true, ne_eq, not_false_eq_true]
      rw [List.map_cons, this, hor j hj]
    · have h' := fun x => h (hb.mp x)
      rw [List.filterMap_cons, List.filter_cons]
      rw [if_neg h']
      simp only [h, decide_false, Bool.false_eq_true, if_false]
      exact this

theorem bitSet_lt {a : UInt8} {as : List UInt8} {j : Nat} (h : j < 8) :
    bitSet (a :: as) j = decide (a.toNat / 2 ^ (7 - j) % 2 = 1) := by
  unfold bitSet
  have h1 : j / 8 = 0 := by omega
  have h2 : j % 8 = j := by omega
  rw [h1, h2]; rfl

theorem bitSet_ge {a : UInt8} {as : List UInt8} {j : Nat} : bitSet (a :: as) (8 + j) = bitSet as j := by
  unfold bitSet
  have h1 : (8 + j) / 8 = j / 8 + 1 := by omega
  have h2 : (8 + j) % 8 = j % 8 := by omega
  rw [h1, h2]; rfl

theorem tWindow_eq (win : Nat) (as : List UInt8) : ∀ (lo : Nat) (u : List UInt8), lo + 8 * as.length ≤ 256 → Clean u →
    tWindow win lo as u = u ++ emit ((((List.range (8 * as.length)).filter (bitSet as)).map fun j => win * 256 + (lo + j)).map typeText) := by
  induction as with
  | nil => intro lo u _ _; simp [tWindow, emit]
  | cons a as ih =>
    intro lo u hl hu
    simp only [List.length_cons] at hl
    rw [tWindow, foldl_typeTok _ hu, ih _ _ (by omega)]
    · rw [typesOfByte_eq a (by omega)]
      have e : 8 * (a :: as).length = 8 + 8 * as.length := by simp; omega
      rw [e, List.range_add, List.filter_append, List.map_append, List.map_append]
      have e1 : (List.range 8).filter (bitSet (a :: as)) = (List.range 8).filter fun j => decide (a.toNat / 2 ^ (7 - j) % 2 = 1) := by
        apply List.filter_congr
        intro j hj
        exact bitSet_lt (List.mem_range.mp hj)
      have e2 : ((List.range (8 * as.length)).map (8 + ·)).filter (bitSet (a :: as)) = ((List.range (8 * as.length)).filter (bitSet as)).map (8 + ·) := by
        rw [List.filter_map]
        congr 1
        apply List.filter_congr
        intro j _
        exact bitSet_ge
      rw [e1, e2]
      unfold emit
      rw [List.flatMap_append, List.append_assoc, List.map_map (g := fun j => win * 256 + (lo + j))]
      congr 3
      apply congrArg
      apply List.map_congr_left
      intro j _
      simp only [Function.comp]
      omega
    · refine hu.append (printable_emit ?_)
      intro t ht
      obtain ⟨x, _, rfl⟩ := List.mem_map.mp ht
      exact printable_typeText x

theorem tBitmap_eq {mem : List UInt8} (ws : List (UInt8 × List UInt8)) : ∀ (src fuel : Nat) (u : List UInt8),
    (∀ w ∈ ws, 1 ≤ w.2.length ∧ w.2.length ≤ 32) → Win mem src (ws.flatMap encWindow) → ws.length < fuel → Clean u →
    tBitmap mem fuel ⟨src, ((ws.flatMap encWindow).length : Nat), u⟩ =
      ok (.go ⟨src + (ws.flatMap encWindow).length, 0, u ++ emit ((ws.flatMap windowTypes).map typeText)⟩) := by
  induction ws with
  | nil =>
    intro src fuel u _ _ hf _
    obtain ⟨f, rfl⟩ : ∃ f, fuel = f + 1 := ⟨fuel - 1, by simp at hf; omega⟩
    simp [tBitmap, emit]
  | cons w ws ih =>
    intro src fuel u hws hw hf hu
    obtain ⟨f, rfl⟩ : ∃ f, fuel = f + 1 := ⟨fuel - 1, by simp at hf; omega⟩
    obtain ⟨w, s⟩ := w
    obtain ⟨h1, h2⟩ := hws (w, s) (by simp)
    simp only at h1 h2
    rw [List.flatMap_cons] at hw ⊢
    have hlen : (encWindow (w, s) ++ ws.flatMap encWindow).length = 2 + s.length + (ws.flatMap encWindow).length := by
      simp [encWindow]; omega
    have hwin : Win mem src (w :: UInt8.ofNat s.length :: (s ++ ws.flatMap encWindow)) := by simpa [encWindow] using hw
    have e0 := hwin.rd
    have e1 := hwin.tail.rd
    have e2 := hwin.tail.tail.left.rdN rfl
    have hl : (UInt8.ofNat s.length).toNat = s.length := toNat_ofNat_lt (by omega)
    rw [hlen, tBitmap]
    simp only [need]
    rw [if_pos (by omega), e0, ok_bind, e1, ok_bind]
    simp only [hl]
    rw [if_neg (by omega), show src + 2 = src + 1 + 1 by omega, e2, ok_bind, tWindow_eq _ _ _ _ (by omega) hu]
    have a1 : ((2 + s.length + (ws.flatMap encWindow).length : Nat) : Int) - 2 - (s.length : Int) = ((ws.flatMap encWindow).length : Nat) := by omega
    rw [a1, ih _ _ _ (fun x hx => hws x (by simp [hx])) hwin.tail.tail.right (by simp at hf; omega)]
    · have a2 : src + 1 + 1 + s.length + (ws.flatMap encWindow).length = src + (2 + s.length + (ws.flatMap encWindow).length) := by omega
      rw [a2, List.flatMap_cons, List.map_append]
      have e3 : ∀ a b, emit (a ++ b) = emit a ++ emit b := by intro a b; simp [emit]
      rw [e3]
      simp [windowTypes]
    · refine hu.append (printable_emit ?_)
      intro t ht
      obtain ⟨x, _, rfl⟩ := List.mem_map.mp ht
      exact printable_typeText x

/-! ### one field -/

/-- Fields after which no space is written. -/
def Tight : Rdf → Prop
  | .bytes | .bytesB64 | .eui48 | .eui64 | .svcparams => True
  | _ => False

instance : DecidablePred Tight := fun t => by cases t <;> unfold Tight <;> infer_instance

theorem emit_one (t : List UInt8) : emit [t] = t ++ [32] := by simp [emit]

theorem textOf_one {t : List UInt8} (h : Graphic t) (h0 : t ≠ []) : TextOf [t] t := by
  right
  refine ⟨(spaced_one t).symm, h0, ?_⟩
  intro hl
  exact h.no_space 32 (List.mem_of_getLast? hl) rfl

theorem base64_ne_nil {s : List UInt8} (h : s ≠ []) : base64 s ≠ [] := by
  match s, h with
  | [a], _ => simp [base64]
  | [a, b], _ => simp [base64]
  | a :: b :: c :: r, _ => simp [base64]

theorem hexText_ne_nil {u : Bool} {s : List UInt8} (h : s ≠ []) : hexText u s ≠ [] := by
  cases s with
  | nil => exact absurd rfl h
  | cons a s => simp [hexText]

theorem len_one {f : List UInt8} (h : f.length = 1) : ∃ a, f = [a] := by
  match f, h with
  | [a], _ => exact ⟨a, rfl⟩
theorem len_two {f : List UInt8} (h : f.length = 2) : ∃ a b, f = [a, b] := by
  match f, h with
  | [a, b], _ => exact ⟨a, b, rfl⟩
theorem len_four {f : List UInt8} (h : f.length = 4) : ∃ a b c d, f = [a, b, c, d] := by
  match f, h with
  | [a, b, c, d], _ => exact ⟨a, b, c, d, rfl⟩

theorem win_drop {mem : List UInt8} {src : Nat} {w : List UInt8} (h : Win mem src w) : (mem.drop src).take w.length = w := h.eq

/-- What rendering a field gives. -/
def Rendered (mem : List UInt8) (t : Rdf) (src : Nat) (f rest u : List UInt8) : Prop :=
  ∃ tk text src', FieldToks t f tk ∧ (∀ x ∈ tk, Printable x) ∧ (rest ≠ [] → src' = src + f.length) ∧
    tField mem t ⟨src, ((f ++ rest).length : Nat), u⟩ = ok (.go ⟨src', (rest.length : Nat), u ++ text⟩) ∧
    (text = emit tk ∨ (Tight t ∧ TextOf tk text))

theorem rendered_one {mem : List UInt8} {t : Rdf} {src : Nat} {f rest u tok : List UInt8} (h1 : FieldToks t f [tok]) (h2 : Printable tok)
    (h3 : tField mem t ⟨src, ((f ++ rest).length : Nat), u⟩ = ok (.go ⟨src + f.length, (rest.length : Nat), u ++ (tok ++ [32])⟩)) :
    Rendered mem t src f rest u :=
  ⟨[tok], tok ++ [32], src + f.length, h1, by simpa using h2, fun _ => rfl, h3, Or.inl (by simp [emit])⟩

theorem oclen_eq {pl : Nat} (h : pl ≤ 128) : (128 - pl) / 8 + (if pl % 8 ≠ 0 then 1 else 0) = (128 - pl + 7) / 8 := by
  have : ∀ pl < 129, (128 - pl) / 8 + (if pl % 8 ≠ 0 then 1 else 0) = (128 - pl + 7) / 8 := by decide +kernel
  exact this pl (by omega)

theorem tField_render {mem : List UInt8} {t : Rdf} {src : Nat} {f rest u : List UInt8} (hf : FieldOK t f) (he : t ≠ .ednsOptRdata)
    (hT : Terminal t → rest = []) (hne : f ++ rest ≠ []) (hw : Win mem src (f ++ rest)) (hlen : (f ++ rest).length < 65536)
    (hu : Clean u) : Rendered mem t src f rest u := by
  have hl0 : (f ++ rest).length = f.length + rest.length := List.length_append
  cases t with
  | name => exact absurd hf (by simp [FieldOK])
  | uname => exact absurd hf (by simp [FieldOK])
  | ednsOptRdata => exact absurd rfl he
  | bytes =>
    have := hT (by trivial)
    subst this
    simp only [List.append_nil] at *
    refine ⟨_, hexText true f, src + f.length, rfl, by simpa using printable_hexText true f, fun _ => rfl, ?_,
      Or.inr ⟨trivial, textOf_one (graphic_hexText _ _) (hexText_ne_nil hne)⟩⟩
    have e : rdRest mem ⟨src, (f.length : Nat), u⟩ = ok f := by
      unfold rdRest
      simp only
      rw [if_neg (by omega), Int.toNat_natCast, hw.rdN rfl]
    simp only [tField, List.append_nil, e, ok_bind, hexRun_eq true (Nat.le_refl 3), hexText_flatMap]
    rfl
  | bytesB64 =>
    have := hT (by trivial)
    subst this
    simp only [List.append_nil] at *
    refine ⟨_, base64 f, src, rfl, by simpa using printable_base64 f, fun h => absurd rfl h, ?_,
      Or.inr ⟨trivial, textOf_one (graphic_base64 _) (base64_ne_nil hne)⟩⟩
    have e : ((f.length : Int) % 65536).toNat = f.length := by omega
    simp only [tField, List.append_nil, e, hw.rdN rfl, ok_bind, bytesToBase64_eq]
    rfl
  | bytesStr =>
    have := hT (by trivial)
    subst this
    refine rendered_one (tok := quoted f) rfl (printable_quoted f) ?_
    simp only [List.append_nil] at *
    have e : rdRest mem ⟨src, (f.length : Nat), u⟩ = ok f := by
      unfold rdRest
      simp only
      rw [if_neg (by omega), Int.toNat_natCast, hw.rdN rfl]
    simp only [tField, e, ok_bind, strQuoted_eq]
    rfl
  | int8 =>
    obtain ⟨a, rfl⟩ := len_one hf
    refine rendered_one (tok := decText a.toNat) ⟨a, rfl, rfl⟩ (printable_decText _) ?_
    rw [hl0]
    have ha := a.toNat_lt
    have e0 := hw.left.rd
    simp only [tField, need]
    rw [if_neg (by simp; omega), e0, ok_bind, decStr_eq (by omega) (by omega), ok_bind]
    simp <;> omega
  | int16 =>
    obtain ⟨a, b, rfl⟩ := len_two hf
    refine rendered_one (tok := decText (be16 a b)) ⟨a, b, rfl, rfl⟩ (printable_decText _) ?_
    rw [hl0]
    have hb := be16_lt a b
    have e0 := hw.left.rd
    have e1 := hw.left.tail.rd
    simp only [tField, need]
    rw [if_neg (by simp; omega), e0, ok_bind, e1, ok_bind, decStr_eq (by omega) (by omega), ok_bind]
    simp <;> omega
  | rrtype =>
    obtain ⟨a, b, rfl⟩ := len_two hf
    refine rendered_one (tok := typeText (be16 a b)) ⟨a, b, rfl, rfl⟩ (printable_typeText _) ?_
    rw [hl0]
    have e0 := hw.left.rd
    have e1 := hw.left.tail.rd
    simp only [tField, need]
    rw [if_neg (by simp; omega), e0, ok_bind, e1, ok_bind, typeTok_eq hu]
    simp <;> omega
  | int32 =>
    obtain ⟨a, b, c, d, rfl⟩ := len_four hf
    refine rendered_one (tok := decText (be32 a b c d)) ⟨a, b, c, d, rfl, rfl⟩ (printable_decText _) ?_
    rw [hl0]
    have hb := be32_lt a b c d
    have e0 := hw.left.rd
    have e1 := hw.left.tail.rd
    have e2 := hw.left.tail.tail.rd
    have e3 := hw.left.tail.tail.tail.rd
    simp only [tField, need]
    rw [if_neg (by simp; omega), e0, ok_bind, e1, ok_bind, show src + 2 = src + 1 + 1 by omega, e2, ok_bind,
      show src + 3 = src + 1 + 1 + 1 by omega, e3, ok_bind, decStr_eq (by omega) (by omega), ok_bind]
    simp <;> omega
  | ipv4 =>
    have h4 : f.length = 4 := hf
    refine rendered_one (tok := quadText f) ⟨hf, rfl⟩ (printable_quadText _) ?_
    have hlm := hw.left.len
    have e := hw.left.eq
    rw [h4] at e
    rw [hl0, h4]
    simp only [tField, need]
    rw [if_neg (by omega), inet4Ntop_quad (by simp; omega) (by omega), ok_bind, e]
    simp [uAddCstr_clean hu] <;> omega
  | ipv6 =>
    have h4 : f.length = 16 := hf
    refine rendered_one (tok := ip6Text f) ⟨hf, rfl⟩ (printable_ip6Text _) ?_
    have hlm := hw.left.len
    have e := hw.left.eq
    rw [h4] at e
    rw [hl0, h4]
    simp only [tField, need]
    rw [if_neg (by omega), inet6Ntop_ip6 (by simp; omega) (by omega), ok_bind, e]
    simp [uAddCstr_clean hu] <;> omega
  | ipv6prefix =>
    obtain ⟨pl, s, rfl, h1, h2⟩ : Prefix6 f := hf
    have hpl := oclen_eq h1
    have e0 := hw.rd
    have e1 := (Win.tail hw).left.rdN rfl
    rw [List.cons_append, List.length_cons, List.length_append] at hl0
    have key : tField mem .ipv6prefix ⟨src, ((pl :: s ++ rest).length : Nat), u⟩ =
        ok (.go ⟨src + (pl :: s).length, (rest.length : Nat),
          u ++ emit (decText pl.toNat :: (if s = [] then [] else [ip6Text (List.replicate (16 - s.length) 0 ++ s)]))⟩) := by
      rw [List.cons_append, List.length_cons, List.length_append]
      simp only [tField, need]
      rw [if_neg (by omega), e0, ok_bind, if_neg (by omega)]
      simp only [hpl, ← h2]
      rw [if_neg (by omega), e1, ok_bind, uAddCstr_clean hu, fmtU_eq]
      have a1 : ((s.length + rest.length + 1 : Nat) : Int) - (1 + (s.length : Int)) = (rest.length : Nat) := by omega
      by_cases hs : s = []
      · subst hs
        simp [emit] <;> omega
      · have : s.length ≠ 0 := by simpa using hs
        have h16 : s.length ≤ 16 := by omega
        rw [if_pos (by omega), inet6Ntop_ip6 (by simp; omega) (by omega)]
        simp only [ok_bind]
        rw [uAddCstr_clean (hu.append ((printable_decText _).append (by decide)))]
        have e3 : (List.replicate (16 - s.length) (0 : UInt8) ++ s).take 16 = List.replicate (16 - s.length) 0 ++ s := by
          apply List.take_of_length_le; simp; omega
        rw [e3]
        simp [emit, hs]
        omega
    refine ⟨_, _, _, ⟨pl, s, rfl, h1, h2, rfl⟩, ?_, fun _ => rfl, key, Or.inl rfl⟩
    intro x hx
    rcases List.mem_cons.mp hx with rfl | hx
    · exact printable_decText _
    · split at hx
      · simp at hx
      · simp only [List.mem_cons, List.not_mem_nil, or_false] at hx
        subst hx
        exact printable_ip6Text _
  | eui48 =>
    have h4 : f.length = 6 := hf
    have hf0 : f ≠ [] := by rintro rfl; simp at h4
    have hg : Graphic (List.intercalate [45] (f.map fun b => hexText false [b])) := by
      refine Graphic.intercalate (by decide) ?_
      intro x hx
      obtain ⟨b, _, rfl⟩ := List.mem_map.mp hx
      exact graphic_hexText _ _
    have hg0 : List.intercalate [45] (f.map fun b => hexText false [b]) ≠ [] := by
      cases f with
      | nil => exact absurd rfl hf0
      | cons a l => rw [← flatMap_sep]; simp [hexText]
    refine ⟨_, _, src + 6, ⟨hf, rfl⟩, by simpa using hg.printable, fun _ => by rw [h4], ?_, Or.inr ⟨trivial, textOf_one hg hg0⟩⟩
    rw [hl0, h4]
    simp only [tField, need]
    rw [if_neg (by omega), hw.left.rdN h4.symm, ok_bind, euiRun_eq f u hf0]
    simp <;> omega
  | eui64 =>
    have h4 : f.length = 8 := hf
    have hf0 : f ≠ [] := by rintro rfl; simp at h4
    have hg : Graphic (List.intercalate [45] (f.map fun b => hexText false [b])) := by
      refine Graphic.intercalate (by decide) ?_
      intro x hx
      obtain ⟨b, _, rfl⟩ := List.mem_map.mp hx
      exact graphic_hexText _ _
    have hg0 : List.intercalate [45] (f.map fun b => hexText false [b]) ≠ [] := by
      cases f with
      | nil => exact absurd rfl hf0
      | cons a l => rw [← flatMap_sep]; simp [hexText]
    refine ⟨_, _, src + 8, ⟨hf, rfl⟩, by simpa using hg.printable, fun _ => by rw [h4], ?_, Or.inr ⟨trivial, textOf_one hg hg0⟩⟩
    rw [hl0, h4]
    simp only [tField, need]
    rw [if_neg (by omega), hw.left.rdN h4.symm, ok_bind, euiRun_eq f u hf0]
    simp <;> omega
  | string =>
    obtain ⟨l, s, rfl, h⟩ : ∃ l s, f = l :: s ∧ s.length = l.toNat := hf
    have hs : s.length < 256 := by rw [h]; exact l.toNat_lt
    rw [encString_of h] at hw ⊢
    exact rendered_one (tok := quoted s) ⟨s, hs, rfl, rfl⟩ (printable_quoted s) (tString_eq hs hw)
  | repstring =>
    have := hT (by trivial)
    subst this
    obtain ⟨ss, h1, rfl⟩ := strings_enc (show Strings f from hf)
    refine ⟨ss.map quoted, _, src + (ss.flatMap encString).length, ⟨ss, h1, rfl, rfl⟩, ?_, fun h => absurd rfl h, ?_, Or.inl rfl⟩
    · intro x hx
      obtain ⟨s, _, rfl⟩ := List.mem_map.mp hx
      exact printable_quoted s
    · simp only [List.append_nil] at *
      have hb : ss.length ≤ (ss.flatMap encString).length := by
        clear hT hf he hw hlen hl0 h1 hne
        induction ss with
        | nil => simp
        | cons s ss ih => simp only [List.flatMap_cons, List.length_append, List.length_cons, encString] at *; omega
      simp only [tField]
      rw [tRepstring_eq ss src _ u h1 hw (by simp only [Int.toNat_natCast]; omega)]
      rfl
  | typeBitmap =>
    have := hT (by trivial)
    subst this
    obtain ⟨ws, h1, rfl⟩ := windows_enc (show Windows f from hf)
    refine ⟨(ws.flatMap windowTypes).map typeText, _, src + (ws.flatMap encWindow).length, ⟨ws, h1, rfl, rfl⟩, ?_, fun h => absurd rfl h, ?_, Or.inl rfl⟩
    · intro x hx
      obtain ⟨s, _, rfl⟩ := List.mem_map.mp hx
      exact printable_typeText s
    · simp only [List.append_nil] at *
      have hb : 2 * ws.length ≤ (ws.flatMap encWindow).length := by
        clear hT hf he hw hlen hl0 h1 hne
        induction ws with
        | nil => simp
        | cons s ss ih => simp only [List.flatMap_cons, List.length_append, List.length_cons, encWindow] at *; omega
      have hws : ws ≠ [] := by rintro rfl; exact hne rfl
      have : ws.length ≠ 0 := by simpa using hws
      simp only [tField, need]
      rw [if_neg (by omega), tBitmap_eq ws src _ u h1 hw (by simp only [Int.toNat_natCast]; omega) hu]
      rfl
  | svcparams =>
    have := hT (by trivial)
    subst this
    obtain ⟨ps, h1, rfl⟩ := params_enc (show Params f from hf)
    simp only [List.append_nil] at *
    have hb : ps.length ≤ (ps.flatMap encParam).length := by
      clear hT hf he hw hlen hl0 h1 hne
      induction ps with
      | nil => simp
      | cons s ss ih => simp only [List.flatMap_cons, List.length_append, List.length_cons, encParam, net16] at *; omega
    obtain ⟨toks, text, g1, g2, g3, g4⟩ := tSvcparams_eq ps src ((ps.flatMap encParam).length + 1) u h1 hw (by omega) hu
    refine ⟨toks, text, src + (ps.flatMap encParam).length, ⟨ps, h1, rfl, g1⟩, g3, fun h => absurd rfl h, ?_, Or.inr ⟨trivial, g2⟩⟩
    simp only [List.append_nil, tField, Int.toNat_natCast]
    rw [g4]
    rfl
  | salt =>
    obtain ⟨l, s, rfl, h⟩ : ∃ l s, f = l :: s ∧ s.length = l.toNat := hf
    have hs : s.length < 256 := by rw [h]; exact l.toNat_lt
    have hp : Printable (if s = [] then [45] else hexText false s) := by
      split
      · decide
      · exact printable_hexText _ _
    refine rendered_one (tok := if s = [] then [45] else hexText false s) ⟨s, hs, encString_of h, rfl⟩ hp ?_
    have e0 := hw.rd
    have e1 := (Win.tail hw).left.rdN rfl
    rw [List.cons_append, List.length_cons, List.length_append]
    simp only [tField, need]
    rw [if_neg (by omega), e0, ok_bind, if_neg (by omega), ← h, e1, ok_bind, hexRun_eq _ (Nat.le_refl 3), ok_bind, hexText_flatMap]
    have a1 : ((s.length + rest.length + 1 : Nat) : Int) - (1 + (s.length : Int)) = (rest.length : Nat) := by omega
    have a2 : src + 1 + s.length = src + (l :: s).length := by simp; omega
    rw [a1, a2]
    by_cases hs0 : s = []
    · subst hs0; simp [hexText]
    · have : s.length ≠ 0 := by simpa using hs0
      simp [hs0]
  | hash =>
    obtain ⟨l, s, rfl, h⟩ : ∃ l s, f = l :: s ∧ s.length = l.toNat := hf
    have hs : s.length < 256 := by rw [h]; exact l.toNat_lt
    have hp : Printable (if s = [] then [48] else base32 s) := by
      split
      · decide
      · exact printable_base32 _
    refine rendered_one (tok := if s = [] then [48] else base32 s) ⟨s, hs, encString_of h, rfl⟩ hp ?_
    have e0 := hw.rd
    have e1 := (Win.tail hw).left.rdN rfl
    rw [List.cons_append, List.length_cons, List.length_append]
    simp only [tField, need]
    rw [if_neg (by omega), e0, ok_bind, if_neg (by omega), ← h, e1, ok_bind]
    have a1 : ((s.length + rest.length + 1 : Nat) : Int) - (1 + (s.length : Int)) = (rest.length : Nat) := by omega
    have a2 : src + 1 + s.length = src + (l :: s).length := by simp; omega
    rw [a1, a2]
    by_cases hs0 : s = []
    · subst hs0; simp
    · have : s.length ≠ 0 := by simpa using hs0
      have hb := base32_length s
      rw [if_neg this, base32Encode_eq _ s hs0, ok_bind, List.take_of_length_le (by omega)]
      simp [hs0]

/-! ### all fields -/

/-- Only the last field may be one without a space after it. -/
def TightLast : List Rdf → Prop
  | [] => True
  | t :: ts => (Tight t → ts = []) ∧ TightLast ts

theorem tField_name {mem : List UInt8} {t : Rdf} {src : Nat} {n : Name} {rest u : List UInt8} (ht : IsName t) (hn : WF n)
    (hw : Win mem src (wire n ++ rest)) (hlen : (wire n ++ rest).length < 65536) (hu : Clean u) :
    tField mem t ⟨src, ((wire n ++ rest).length : Nat), u⟩ =
      ok (.go ⟨src + (wire n).length, (rest.length : Nat), u ++ emit [nameText n]⟩) := by
  have hl := hw.len
  have hl2 : (wire n ++ rest).length = (wire n).length + rest.length := List.length_append
  have he : ((src : Int) + ((wire n ++ rest).length : Nat)).toNat = src + (wire n ++ rest).length := by omega
  have hpre : wire n <+: (mem.take (src + (wire n ++ rest).length)).drop src := by
    rw [List.drop_take]
    have : src + (wire n ++ rest).length - src = (wire n ++ rest).length := by omega
    rw [this, hw.eq]
    exact List.prefix_append _ _
  obtain ⟨h1, -⟩ := (C09_len_exact_partial mem src (src + (wire n ++ rest).length) (wire n).length (by omega) (by omega)).2.mpr
    ⟨n, hn, hpre, rfl⟩
  obtain ⟨x, hx⟩ := hw.2
  have hd : domainToStr preslenName (mem.drop src) (wire n).length = ok ((wire n).length, nameText n) := by
    rw [← hx, List.append_assoc]
    exact domainToStr_spec hn (by decide)
  have a1 : ((wire n ++ rest).length : Int) - ((wire n).length : Int) = (rest.length : Nat) := by omega
  have key : (match lenUname mem src (src + (wire n ++ rest).length) with
    | ok len => do
      let (_, s) ← domainToStr preslenName (mem.drop src) len
      ok (TRes.go ⟨src + len, ((wire n ++ rest).length : Nat) - (len : Int), uAddCstr u s ++ [32]⟩)
    | err r => ok (.bad (some r) u)
    | ub => ub
    | hang => hang
    | abort => abort) = ok (.go ⟨src + (wire n).length, (rest.length : Nat), u ++ emit [nameText n]⟩) := by
    rw [h1]
    simp only [hd, ok_bind, a1, uAddCstr_clean hu]
    simp [emit]
  cases t with
  | name => simp only [tField, he]; exact key
  | uname => simp only [tField, he]; exact key
  | _ => exact absurd ht (by simp [IsName])

theorem tFields_render {mem : List UInt8} {ts : List Rdf} {w : List UInt8} (h : Conforms ts w) : ∀ (src : Nat) (u : List UInt8),
    TightLast ts → Rdf.ednsOptRdata ∉ ts → Win mem src w → w.length < 65536 → Clean u →
    ∃ toks text src', RdataToks ts w toks ∧ TextOf toks text ∧ (∀ t ∈ toks, Printable t) ∧
      tFields mem ts ⟨src, (w.length : Nat), u⟩ = ok (.go ⟨src', 0, u ++ text⟩) := by
  induction h with
  | @done ts =>
    intro src u _ _ _ _ _
    refine ⟨[], [], src, .done, Or.inl rfl, by simp, ?_⟩
    cases ts with
    | nil => simp [tFields]
    | cons t ts => simp [tFields]
  | @name t ts n rest ht hn _ ih =>
    intro src u htl hed hw hlen hu
    have hpos := wire_length_pos n
    have hl2 : (wire n ++ rest).length = (wire n).length + rest.length := List.length_append
    obtain ⟨toks, text, src', h1, h2, h3, h4⟩ := ih (src + (wire n).length) (u ++ emit [nameText n]) htl.2
      (fun h => hed (by simp [h])) hw.right (by omega)
      (hu.append (printable_emit (by simpa using printable_nameText n)))
    refine ⟨nameText n :: toks, emit [nameText n] ++ text, src', .name ht hn h1, h2.cons (tk := [nameText n]), ?_, ?_⟩
    · intro x hx
      rcases List.mem_cons.mp hx with rfl | hx
      · exact printable_nameText n
      · exact h3 x hx
    · rw [tFields, if_neg (by simp only; omega), tField_name ht hn hw hlen hu, ok_bind]
      simp only
      rw [h4, List.append_assoc]
  | @field t ts f rest hf hne hT hc ih =>
    intro src u htl hed hw hlen hu
    have hl2 : (f ++ rest).length = f.length + rest.length := List.length_append
    have hpos : (f ++ rest).length ≠ 0 := by simpa using hne
    obtain ⟨tk, text0, src0, g1, g2, g3, g4, g5⟩ := tField_render hf (fun h => hed (by simp [h])) hT hne hw hlen hu
    have hp0 : Printable text0 := by
      rcases g5 with rfl | ⟨_, g5⟩
      · exact printable_emit g2
      · exact g5.printable g2
    by_cases hr : rest = []
    · subst hr
      refine ⟨tk, text0, src0, ?_, ?_, g2, ?_⟩
      · have := RdataToks.field (ts := ts) (toks := []) g1 hne hT .done
        simpa using this
      · rcases g5 with g5 | ⟨_, g5⟩
        · exact Or.inl g5
        · exact g5
      · rw [tFields, if_neg (by simp only; omega), g4, ok_bind]
        simp only
        cases ts with
        | nil => simp [tFields]
        | cons t ts => simp [tFields]
    · have hloose : text0 = emit tk := by
        rcases g5 with g5 | ⟨ht, _⟩
        · exact g5
        · have := htl.1 ht
          subst this
          cases hc
          exact absurd rfl hr
      subst hloose
      have := g3 hr
      subst this
      obtain ⟨toks, text, src', h1, h2, h3, h4⟩ := ih (src + f.length) (u ++ emit tk) htl.2 (fun h => hed (by simp [h])) hw.right
        (by omega) (hu.append hp0)
      refine ⟨tk ++ toks, emit tk ++ text, src', .field g1 hne hT h1, h2.cons, ?_, ?_⟩
      · intro x hx
        rcases List.mem_append.mp hx with hx | hx
        · exact g2 x hx
        · exact h3 x hx
      · rw [tFields, if_neg (by simp only; omega), g4, ok_bind]
        simp only
        rw [h4, List.append_assoc]

def decTightLast : (ts : List Rdf) → Decidable (TightLast ts)
  | [] => isTrue trivial
  | t :: ts =>
    have := decTightLast ts
    inferInstanceAs (Decidable ((Tight t → ts = []) ∧ TightLast ts))

instance : DecidablePred TightLast := decTightLast

theorem descr_tight {ty : Nat} {d : Descr} (h : recordDescr ty = some d) : TightLast d.types ∧ (ty ≠ 41 → Rdf.ednsOptRdata ∉ d.types) := by
  have hall : ∀ ty < 258, ∀ d ∈ recordDescr ty, TightLast d.types ∧ (ty ≠ 41 → Rdf.ednsOptRdata ∉ d.types) := by decide +kernel
  exact hall ty (recordDescr_lt h) d h

/-- Rendering conforming rdata appends its tokens. -/
theorem rdataToUbuf_render {u mem w : List UInt8} {ty cls : Nat} {d : Descr} (hd : recordDescr ty = some d) (ha : d.applies cls = true)
    (hty : ty ≠ 41) (hc : Conforms d.types w) (hw : Win mem 0 w) (hlen : w.length < 65536) (hu : Clean u) :
    ∃ toks text, RdataToks d.types w toks ∧ (∀ t ∈ toks, Printable t) ∧ TextOf toks text ∧
      rdataToUbuf u mem w.length ty cls = ok (stripLast 32 (u ++ text)) := by
  obtain ⟨h1, h2⟩ := descr_tight hd
  obtain ⟨toks, text, src', g1, g2, g3, g4⟩ := tFields_render hc 0 u h1 (h2 hty) hw hlen hu
  refine ⟨toks, text, g1, g3, g2, ?_⟩
  unfold rdataToUbuf
  rw [hd]
  simp only [ha, if_true, g4, ok_bind]

end Wdns
