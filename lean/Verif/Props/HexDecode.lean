import Verif.Model.Tools
import Verif.Props.Format

/-!
# C89: reading hexadecimal text (libmy/hex_decode.h, examples/wdns-hex-driver.c)
-/

namespace Wdns
open Outcome Spec

theorem hdVal_eq (c : UInt8) : hdVal c = hexVal c := by
  have h : ∀ n < 256, hdVal (UInt8.ofNat n) = hexVal (UInt8.ofNat n) := by decide +kernel
  have := h c.toNat c.toNat_lt
  rwa [UInt8.ofNat_toNat] at this

theorem hexVal_lt {c : UInt8} {v : Nat} (h : hexVal c = some v) : v < 16 := by
  unfold hexVal at h
  split at h
  · simp only [Option.some.injEq] at h; omega
  · split at h
    · simp only [Option.some.injEq] at h; omega
    · split at h
      · simp only [Option.some.injEq] at h; omega
      · cases h

theorem nib_or {a b : Nat} (hb : b < 16) : (a <<< 4) ||| b = 16 * a + b := by
  have := Nat.shiftLeft_add_eq_or_of_lt (i := 4) (b := b) (by omega) a
  rw [← this, Nat.shiftLeft_eq]
  omega

theorem hexDecode_length : ∀ (t w : List UInt8), hexDecode t = some w → t.length = 2 * w.length
  | [], w, h => by simp only [hexDecode, Option.some.injEq] at h; subst h; rfl
  | [_], w, h => by simp [hexDecode] at h
  | x :: y :: rest, w, h => by
    simp only [hexDecode] at h
    split at h
    · next a b r _ _ h3 =>
      simp only [Option.some.injEq] at h
      subst h
      have := hexDecode_length rest r h3
      simp only [List.length_cons]
      omega
    · cases h

/-- The loop, from any point of the text. -/
theorem hdLoop_spec : ∀ (rest : List UInt8) (text : List UInt8) (cap fuel hex : Nat) (out : List UInt8),
    text.drop hex = rest → rest.length % 2 = 0 → rest.length < fuel → out.length + rest.length / 2 ≤ cap → rest.length < 2 ^ 64 →
    hdLoop text cap fuel hex rest.length out = ok ((hexDecode rest).map (out ++ ·))
  | [], text, cap, fuel, hex, out, hd, he, hf, hc, h64 => by
    obtain ⟨fuel, rfl⟩ : ∃ k, fuel = k + 1 := ⟨fuel - 1, by simp only [List.length_nil] at hf; omega⟩
    simp [hdLoop, hexDecode]
  | [x], text, cap, fuel, hex, out, hd, he, hf, hc, h64 => by simp at he
  | x :: y :: rest, text, cap, fuel, hex, out, hd, he, hf, hc, h64 => by
    simp only [List.length_cons] at he hf hc h64
    obtain ⟨fuel, rfl⟩ : ∃ k, fuel = k + 1 := ⟨fuel - 1, by omega⟩
    have hx : text[hex]? = some x := by rw [← List.head?_drop, hd]; rfl
    have hy : text[hex + 1]? = some y := by
      have := congrArg (·[1]?) hd
      simpa [List.getElem?_drop] using this
    have hl0 : hex < text.length := (List.getElem?_eq_some_iff.mp hx).1
    have hl1 : hex + 1 < text.length := (List.getElem?_eq_some_iff.mp hy).1
    have r0 : rdS text hex = ok x := by rw [rdS, if_pos hl0, List.getD_eq_getElem?_getD, hx]; rfl
    have r1 : rdS text (hex + 1) = ok y := by rw [rdS, if_pos hl1, List.getD_eq_getElem?_getD, hy]; rfl
    have hdr : text.drop (hex + 2) = rest := by
      have := congrArg (List.drop 2) hd
      simpa [List.drop_drop] using this
    rw [hdLoop, if_pos (by simp), r0, ok_bind, hdVal_eq]
    cases ha : hexVal x with
    | none => simp [hexDecode, ha]
    | some a =>
      dsimp only
      rw [r1, ok_bind, hdVal_eq]
      cases hb : hexVal y with
      | none => simp [hexDecode, ha, hb]
      | some b =>
        dsimp only
        rw [wr_ok (by omega), ok_bind, nib_or (hexVal_lt hb)]
        have : ((x :: y :: rest).length + 2 ^ 64 - 2) % 2 ^ 64 = rest.length := by
          simp only [List.length_cons]; omega
        rw [this, hdLoop_spec rest text cap fuel (hex + 2) _ hdr (by omega) (by omega) (by simp only [List.length_append, List.length_cons, List.length_nil]; omega) (by omega)]
        simp only [hexDecode, ha, hb]
        cases hexDecode rest <;> simp

theorem hdDecode_eq (t : List UInt8) (h : Heap) (h64 : t.length < 2 ^ 64) :
    hdDecode t h = ok (match t, hexDecode t with
      | [], _ => (none, h)
      | _ :: _, some w => (some (w, h.next), ⟨h.next + 1, h.next :: h.live⟩)
      | _ :: _, none => (none, if t.length % 2 = 0 then ⟨h.next + 1, h.live⟩ else h)) := by
  unfold hdDecode
  dsimp only
  by_cases h0 : t.length = 0 ∨ t.length % 2 ≠ 0
  · rw [if_pos h0]
    cases t with
    | nil => rfl
    | cons c cs =>
      have hodd : (c :: cs).length % 2 ≠ 0 := by rcases h0 with h0 | h0 <;> simp_all
      have hn : hexDecode (c :: cs) = none := by
        cases hh : hexDecode (c :: cs) with
        | none => rfl
        | some w => have := hexDecode_length _ _ hh; omega
      rw [hn]
      simp only [if_neg hodd]
  · rw [if_neg h0]
    have he : t.length % 2 = 0 := by omega
    have hs := hdLoop_spec t t (t.length / 2) (t.length + 1) 0 [] rfl he (by omega) (by simp) h64
    simp only [Heap.malloc]
    rw [hs]
    cases t with
    | nil => simp at h0
    | cons c cs =>
      cases hexDecode (c :: cs) with
      | some w => simp
      | none =>
        simp [Heap.free]
        simp only [List.length_cons] at he
        intro h1; omega

/-- Reading a hexadecimal text never reads or writes out of bounds and always returns; it succeeds for exactly the non-empty texts of pairs of
hexadecimal digits of either case, and gives the octets they denote, in one new block. -/
theorem C89_exact (t w : List UInt8) (b : Nat) (h h' : Heap) (h64 : t.length < 2 ^ 64) :
    hdDecode t h = ok (some (w, b), h') ↔
      t ≠ [] ∧ hexDecode t = some w ∧ b = h.next ∧ h'.next = h.next + 1 ∧ h'.live = h.next :: h.live := by
  rw [hdDecode_eq t h h64]
  obtain ⟨n', l'⟩ := h'
  cases t with
  | nil => simp
  | cons c cs =>
    cases hexDecode (c :: cs) with
    | none => simp
    | some v => simp only [ok.injEq, Prod.mk.injEq, Option.some.injEq, Heap.mk.injEq, ne_eq, reduceCtorEq, not_false_eq_true, true_and]
                constructor
                · rintro ⟨⟨rfl, rfl⟩, rfl, rfl⟩; simp
                · rintro ⟨rfl, rfl, rfl, rfl⟩; simp

/-- Every other text is refused, and then the heap is as before (the block is released). -/
theorem C89_refused (t : List UInt8) (h : Heap) (h64 : t.length < 2 ^ 64) (hn : t = [] ∨ hexDecode t = none) :
    ∃ h', hdDecode t h = ok (none, h') ∧ h'.live = h.live := by
  rw [hdDecode_eq t h h64]
  cases t with
  | nil => exact ⟨h, rfl, rfl⟩
  | cons c cs =>
    have hn : hexDecode (c :: cs) = none := by simpa using hn
    rw [hn]
    dsimp only
    split
    · exact ⟨_, rfl, rfl⟩
    · exact ⟨_, rfl, rfl⟩

/-- A case of `C89_refused`: an odd number of digits. -/
example : ∃ h', hdDecode (ascii "00f") ⟨3, [1]⟩ = ok (none, h') ∧ h'.live = [1] := C89_refused _ _ (by decide) (.inr (by decide))

/-- What the library prints in hexadecimal is read back: every sequence of octets but the empty one can be given to the test programs. -/
theorem C89_round_trip (u : Bool) (bs : List UInt8) (h : Heap) (hb : bs ≠ []) (h64 : 2 * bs.length < 2 ^ 64) :
    ∃ b h', hdDecode (bs.flatMap (byteToHex · u)) h = ok (some (bs, b), h') := by
  obtain ⟨h1, _⟩ := hexDecode_flatMap u bs
  have hl := hexDecode_length _ _ h1
  refine ⟨h.next, ⟨h.next + 1, h.next :: h.live⟩, (C89_exact _ _ _ _ _ (by omega)).mpr ⟨?_, h1, rfl, rfl, rfl⟩⟩
  intro he
  rw [he] at hl
  simp only [List.length_nil] at hl
  exact hb (List.length_eq_zero_iff.mp (by omega))

/-- A case of `C89_round_trip`. -/
example : ∃ b h', hdDecode ([0, 171, 255].flatMap (byteToHex · true)) ⟨3, [1]⟩ = ok (some ([0, 171, 255], b), h') :=
  C89_round_trip true _ _ (by decide) (by decide)

/-- The driver of the test programs: with one argument it exits with 0 exactly if the argument is a hexadecimal text of a value that `loadfunc` accepts,
prints what `testfunc` prints for it, and leaves no block behind in any case in which it returns. -/
theorem C89_driver {σ : Type} (load : List UInt8 → Outcome (Option σ)) (test : σ → Outcome (List UInt8)) (args : List (List UInt8)) (h h' : Heap)
    (code : Nat) (out : List UInt8) (h64 : ∀ a ∈ args, a.length < 2 ^ 64) (hr : hexDriver load test args h = ok ((code, out), h')) :
    h'.live = h.live ∧ (code = 0 ∨ code = 1 ∧ out = []) ∧
      (code = 0 ↔ ∃ a w s, args = [a] ∧ a ≠ [] ∧ hexDecode a = some w ∧ load w = ok (some s)) ∧
      (∀ a w s, args = [a] → hexDecode a = some w → load w = ok (some s) → a ≠ [] → test s = ok out) := by
  match args, hr, h64 with
  | [], hr, _ =>
    simp only [hexDriver, ok.injEq, Prod.mk.injEq] at hr
    obtain ⟨⟨rfl, rfl⟩, rfl⟩ := hr
    simp
  | _ :: _ :: _, hr, _ =>
    simp only [hexDriver, ok.injEq, Prod.mk.injEq] at hr
    obtain ⟨⟨rfl, rfl⟩, rfl⟩ := hr
    simp
  | [a], hr, h64 =>
    have h64 := h64 a (by simp)
    simp only [hexDriver] at hr
    rw [hdDecode_eq a h h64] at hr
    cases a with
    | nil =>
      simp only [ok_bind, ok.injEq, Prod.mk.injEq] at hr
      obtain ⟨⟨rfl, rfl⟩, rfl⟩ := hr
      refine ⟨rfl, by simp, by simp, ?_⟩
      intro a w s h1 _ _ h2
      cases h1
      exact absurd rfl h2
    | cons c cs =>
      cases hd : hexDecode (c :: cs) with
      | none =>
        rw [hd] at hr
        simp only [ok_bind, ok.injEq, Prod.mk.injEq] at hr
        obtain ⟨⟨rfl, rfl⟩, rfl⟩ := hr
        refine ⟨by split <;> rfl, by simp, ?_, ?_⟩
        · simp only [Nat.succ_ne_zero, false_iff, not_exists]
          rintro a w s ⟨h1, _, h2, _⟩
          cases h1
          rw [hd] at h2
          cases h2
        · intro a w s h1 h2
          cases h1
          rw [hd] at h2
          cases h2
      | some w =>
        rw [hd] at hr
        simp only [ok_bind] at hr
        obtain ⟨l, hl, hr⟩ := bind_eq_ok.mp hr
        cases l with
        | none =>
          simp only [Heap.free, List.mem_cons, true_or, if_true, ok_bind, ok.injEq, Prod.mk.injEq] at hr
          obtain ⟨⟨rfl, rfl⟩, rfl⟩ := hr
          refine ⟨by simp, by simp, ?_, ?_⟩
          · simp only [Nat.succ_ne_zero, false_iff, not_exists]
            rintro a w' s ⟨h1, _, h2, h3⟩
            cases h1
            rw [hd] at h2
            cases h2
            rw [hl] at h3
            cases h3
          · intro a w' s h1 h2 h3
            cases h1
            rw [hd] at h2
            cases h2
            rw [hl] at h3
            cases h3
        | some s =>
          obtain ⟨o, ho, hr⟩ := bind_eq_ok.mp hr
          simp only [Heap.free, List.mem_cons, true_or, if_true, ok_bind, ok.injEq, Prod.mk.injEq] at hr
          obtain ⟨⟨rfl, rfl⟩, rfl⟩ := hr
          refine ⟨by simp, by simp, ?_, ?_⟩
          · simp only [true_iff]
            exact ⟨_, _, _, rfl, by simp, hd, hl⟩
          · intro a w' s' h1 h2 h3 _
            cases h1
            rw [hd] at h2
            cases h2
            rw [hl] at h3
            cases h3
            exact ho

/-- Non-vacuity. -/
example : hexDecode (ascii "00fFa0") = some [0, 255, 160] ∧ hdDecode (ascii "00fFa0") ⟨3, [1]⟩ = ok (some ([0, 255, 160], 3), ⟨4, [3, 1]⟩) ∧
    hdDecode (ascii "00fG") ⟨3, [1]⟩ = ok (none, ⟨4, [1]⟩) ∧ hdDecode (ascii "00f") ⟨3, [1]⟩ = ok (none, ⟨3, [1]⟩) :=
  ⟨by decide, by rfl, by rfl, by rfl⟩

end Wdns
