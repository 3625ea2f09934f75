import Verif.Model.Varint
import Verif.Spec.Varint

/-!
# C81: variable-length integers
-/

namespace Wdns
open Outcome Spec

/-! ## Bits -/

theorem toNat_ofNat_lt {n : Nat} (h : n < 256) : (UInt8.ofNat n).toNat = n := by
  simp [UInt8.toNat_ofNat]; omega

theorem oct_toNat (v : Nat) : (oct v).toNat = v % 256 := by
  unfold oct; rw [toNat_ofNat_lt (Nat.mod_lt _ (by decide))]

theorem or128_small : ∀ n < 256, n ||| 128 = n % 128 + 128 := by decide +kernel

theorem or128 (v : Nat) : (v ||| 128) % 256 = v % 128 + 128 := by
  have := Nat.or_mod_two_pow (a := v) (b := 128) (n := 8)
  rw [show (2 : Nat) ^ 8 = 256 from rfl] at this
  rw [this, show 128 % 256 = 128 from rfl, or128_small _ (Nat.mod_lt _ (by decide)), Nat.mod_mod_of_dvd _ (by decide)]

theorem and127 (v : Nat) : v &&& 127 = v % 128 := Nat.and_two_pow_sub_one_eq_mod v 7

theorem and128 : ∀ n < 256, (n &&& 0x80 = 0 ↔ n < 128) := by decide +kernel

theorem u8_and128 (c : UInt8) : c.toNat &&& 0x80 = 0 ↔ c.toNat < 128 := and128 _ c.toNat_lt

theorem or_shift {a i : Nat} (b : Nat) (h : a < 2 ^ i) : a ||| (b <<< i) = a + 2 ^ i * b := by
  rw [Nat.or_comm, ← Nat.shiftLeft_add_eq_or_of_lt h, Nat.shiftLeft_eq, Nat.mul_comm b, Nat.add_comm]

/-! ## Encoding -/

theorem value_lt : ∀ {bs : List UInt8}, varintValue bs < 128 ^ bs.length
  | [] => by simp [varintValue]
  | c :: cs => by
    have := @value_lt cs
    simp only [varintValue, List.length_cons, Nat.pow_succ]
    have := Nat.mod_lt c.toNat (show 0 < 128 by decide)
    omega

theorem isVarint_ne {bs : List UInt8} (h : IsVarint bs) : bs ≠ [] := by cases h <;> simp

theorem encode64_facts (v : Nat) : IsVarint (varintEncode64 v) ∧ varintValue (varintEncode64 v) = v ∧
    Shortest (varintEncode64 v) ∧ (varintEncode64 v).length = varintLength v ∧ (0 < v → (varintEncode64 v).getLast? ≠ some 0) := by
  induction v using Nat.strongRecOn with
  | _ v ih =>
    rw [varintEncode64, varintLength]
    by_cases h : v ≥ 128
    · rw [if_pos h, if_pos h]
      have hlt : v >>> 7 < v := by rw [Nat.shiftRight_eq_div_pow]; omega
      have hpos : 0 < v >>> 7 := by rw [Nat.shiftRight_eq_div_pow]; omega
      obtain ⟨h1, h2, h3, h4, h5⟩ := ih _ hlt
      have ho : (oct (v &&& 127 ||| 128)).toNat = v % 128 + 128 := by
        rw [oct_toNat, or128, and127]; omega
      have hne := isVarint_ne h1
      have hl : (oct (v &&& 127 ||| 128) :: varintEncode64 (v >>> 7)).getLast? = (varintEncode64 (v >>> 7)).getLast? := by
        cases hq : varintEncode64 (v >>> 7) with
        | nil => exact absurd hq hne
        | cons a t => simp [List.getLast?_cons_cons]
      refine ⟨.more (by omega) h1, ?_, Or.inr (by rw [hl]; exact h5 hpos), by simp [h4], fun _ => by rw [hl]; exact h5 hpos⟩
      rw [varintValue, ho, h2, Nat.shiftRight_eq_div_pow]
      omega
    · rw [if_neg h, if_neg h]
      have ho : (oct v).toNat = v := by rw [oct_toNat]; omega
      refine ⟨.last (by omega), by simp [varintValue, ho]; omega, Or.inl rfl, rfl, fun hv => ?_⟩
      simp only [List.getLast?_singleton, ne_eq, Option.some.injEq]
      intro hc
      rw [hc] at ho
      simp at ho; omega

/-- **C81.** A shortest variable-length integer is determined by its value, so the octets above are the only ones. -/
theorem C81_shortest_unique : ∀ {a b : List UInt8}, IsVarint a → IsVarint b → Shortest a → Shortest b → varintValue a = varintValue b → a = b := by
  intro a b ha
  have pos : ∀ {x : List UInt8}, IsVarint x → x.getLast? ≠ some 0 → 0 < varintValue x := by
    intro x hx
    induction hx with
    | @last c h =>
      intro h2
      simp only [List.getLast?_singleton, ne_eq, Option.some.injEq] at h2
      have : c.toNat ≠ 0 := fun e => h2 (UInt8.toNat_inj.mp e)
      simp [varintValue]; omega
    | @more c cs h h1 ih =>
      intro h2
      have : (c :: cs).getLast? = cs.getLast? := by
        cases cs with
        | nil => cases h1
        | cons => simp [List.getLast?_cons_cons]
      rw [this] at h2
      have := ih h2
      simp [varintValue]; omega
  have short : ∀ {c : UInt8} {x : List UInt8}, IsVarint x → Shortest (c :: x) → x.getLast? ≠ some 0 := by
    intro c x hx hs
    cases x with
    | nil => cases hx
    | cons y t =>
      rcases hs with h | h
      · simp at h
      · simpa [List.getLast?_cons_cons] using h
  induction ha generalizing b with
  | @last c h =>
    intro hb _ hsb hv
    cases hb with
    | @last d h' =>
      simp [varintValue] at hv
      congr 1
      exact UInt8.toNat_inj.mp (by omega)
    | @more d ds h' hd =>
      have := pos hd (short hd hsb)
      simp [varintValue] at hv
      omega
  | @more c cs h hc ih =>
    intro hb hsa hsb hv
    have p1 := pos hc (short hc hsa)
    cases hb with
    | @last d h' => simp [varintValue] at hv; omega
    | @more d ds h' hd =>
      simp only [varintValue] at hv
      have l1 := c.toNat_lt
      have l2 := d.toNat_lt
      have e1 : varintValue cs = varintValue ds := by omega
      have e2 : c = d := UInt8.toNat_inj.mp (by omega)
      rw [e2, ih hd (Or.inr (short hc hsa)) (Or.inr (short hd hsb)) e1]

/-- **C81.** The octets that `varint_encode64` writes for a 64-bit number are the shortest variable-length integer for it; their
number is what `varint_length` reports, 1 to 10. -/
theorem C81_encode64 (v : Nat) (hv : v < 2 ^ 64) : IsVarint (varintEncode64 v) ∧ varintValue (varintEncode64 v) = v ∧
    Shortest (varintEncode64 v) ∧ (varintEncode64 v).length = varintLength v ∧ 1 ≤ varintLength v ∧ varintLength v ≤ 10 := by
  obtain ⟨h1, h2, h3, h4, h5⟩ := encode64_facts v
  refine ⟨h1, h2, h3, h4, ?_, ?_⟩
  · rw [varintLength]; split <;> omega
  · have bound : ∀ k v, v < 128 ^ (k + 1) → varintLength v ≤ k + 1 := by
      intro k
      induction k with
      | zero => intro v h; rw [varintLength, if_neg (by omega)]; omega
      | succ k ih =>
        intro v h
        rw [varintLength]
        split
        · have := ih (v >>> 7) (by rw [Nat.shiftRight_eq_div_pow, Nat.div_lt_iff_lt_mul (by decide)]; rw [Nat.pow_succ] at h; exact h)
          omega
        · omega
    exact bound 9 v (by have : (2 : Nat) ^ 64 ≤ 128 ^ 10 := by decide
                        omega)

/-- **C81.** `varint_encode32` writes the same octets as `varint_encode64`, at most 5. -/
theorem C81_encode32 (v : Nat) (hv : v < 2 ^ 32) : varintEncode32 v = varintEncode64 v ∧ (varintEncode32 v).length ≤ 5 := by
  have step : ∀ w, oct (w ||| 128) = oct ((w &&& 127) ||| 128) := by
    intro w
    unfold oct
    rw [or128, or128, and127, Nat.mod_mod]
  have hs : ∀ a b : Nat, v >>> a >>> b = v >>> (a + b) := fun a b => (Nat.shiftRight_add v a b).symm
  have key : varintEncode32 v = varintEncode64 v := by
    have big : ∀ w, w ≥ 128 → varintEncode64 w = oct (w ||| 128) :: varintEncode64 (w >>> 7) := fun w h => by
      rw [varintEncode64, if_pos h, ← step]
    have small : ∀ w, w < 128 → varintEncode64 w = [oct w] := fun w h => by rw [varintEncode64, if_neg (by omega)]
    unfold varintEncode32
    simp only [Nat.one_shiftLeft]
    by_cases h1 : v < 2 ^ 7
    · rw [if_pos h1, small v h1]
    rw [if_neg h1, big v (by omega)]
    by_cases h2 : v < 2 ^ 14
    · rw [if_pos h2, small _ (by rw [Nat.shiftRight_eq_div_pow]; omega)]
    rw [if_neg h2, big (v >>> 7) (by rw [Nat.shiftRight_eq_div_pow]; omega), hs]
    by_cases h3 : v < 2 ^ 21
    · rw [if_pos h3, small _ (by rw [Nat.shiftRight_eq_div_pow]; omega)]
    rw [if_neg h3, big (v >>> (7 + 7)) (by rw [Nat.shiftRight_eq_div_pow]; omega), hs]
    by_cases h4 : v < 2 ^ 28
    · rw [if_pos h4, small _ (by rw [Nat.shiftRight_eq_div_pow]; omega)]
    rw [if_neg h4, big (v >>> (7 + 7 + 7)) (by rw [Nat.shiftRight_eq_div_pow]; omega), hs, small _ (by rw [Nat.shiftRight_eq_div_pow]; omega)]
  refine ⟨key, ?_⟩
  unfold varintEncode32
  repeat' split
  all_goals simp

/-! ## Decoding -/

theorem packedLoop_varint {data rest : List UInt8} {bs : List UInt8} (h : IsVarint bs) : ∀ {i n}, data.drop i = bs ++ rest → bs.length ≤ n →
    packedLoop data n i = ok (i + (bs.length - 1)) := by
  have rd0 : ∀ {i : Nat} {c : UInt8} {t : List UInt8}, data.drop i = c :: t → rd data i = ok c ∧ data.drop (i + 1) = t := by
    intro i c t h
    have hi : i < data.length := by
      apply Nat.lt_of_not_le; intro hle; rw [List.drop_eq_nil_of_le hle] at h; cases h
    rw [List.drop_eq_getElem_cons hi] at h
    injection h with h1 h2
    exact ⟨by simp [rd, List.getElem?_eq_getElem hi, h1], h2⟩
  induction h with
  | @last c h =>
    intro i n hd hn
    obtain ⟨n, rfl⟩ : ∃ m, n = m + 1 := ⟨n - 1, by simp at hn; omega⟩
    rw [packedLoop, (rd0 hd).1, ok_bind, if_pos ((u8_and128 c).mpr h)]
    simp
  | @more c cs h hc ih =>
    intro i n hd hn
    obtain ⟨n, rfl⟩ : ∃ m, n = m + 1 := ⟨n - 1, by simp at hn; omega⟩
    have hp := List.length_pos_iff.mpr (isVarint_ne hc)
    rw [packedLoop, (rd0 hd).1, ok_bind, if_neg (fun e => by have := (u8_and128 c).mp e; omega), ih (rd0 hd).2 (by simpa using hn)]
    simp only [List.length_cons, ok.injEq]
    omega

theorem packedLoop_none {data : List UInt8} : ∀ n i, (∀ j < n, ∃ c, data[i + j]? = some c ∧ 128 ≤ c.toNat) → packedLoop data n i = ok (i + n)
  | 0, i, _ => rfl
  | n + 1, i, h => by
    obtain ⟨c, hc, hge⟩ := h 0 (by omega)
    rw [packedLoop, rd, show data[i]? = some c from hc]
    simp only [ok_bind]
    rw [if_neg (fun e => by have := (u8_and128 c).mp e; omega), packedLoop_none n (i + 1) fun j hj => by
      obtain ⟨d, hd, h2⟩ := h (j + 1) (by omega)
      exact ⟨d, by rw [← hd]; congr 1; omega, h2⟩]
    congr 1; omega

theorem lengthPacked_varint {bs rest : List UInt8} (h : IsVarint bs) {n : Nat} (hn : bs.length ≤ n) :
    varintLengthPacked (bs ++ rest) n = ok bs.length := by
  have hp := List.length_pos_iff.mpr (isVarint_ne h)
  rw [varintLengthPacked, packedLoop_varint (data := bs ++ rest) (rest := rest) h (by simp) hn, ok_bind, if_neg (by omega)]
  congr 1; omega

/-- **C81.** `varint_length_packed` on octets that begin with a variable-length integer of at most `n` octets gives its length. -/
theorem C81_length_packed (bs rest : List UInt8) (h : IsVarint bs) (n : Nat) (hn : bs.length ≤ n) :
    varintLengthPacked (bs ++ rest) n = ok bs.length := lengthPacked_varint h hn

/-- **C81.** It gives 0 if none of the `n` octets ends a variable-length integer. -/
theorem C81_length_packed_zero (data : List UInt8) (n : Nat) (h : n ≤ data.length) (hall : ∀ c ∈ data.take n, 128 ≤ c.toNat) :
    varintLengthPacked data n = ok 0 := by
  rw [varintLengthPacked, packedLoop_none n 0 fun j hj => ?_]
  · simp
  · refine ⟨data[j]'(by omega), by simp [List.getElem?_eq_getElem (show j < data.length by omega)], ?_⟩
    apply hall
    exact List.mem_take_iff_getElem.mpr ⟨j, by omega, rfl⟩

/-- A case of `C81_length_packed_zero`: two octets of an unfinished number. -/
example : varintLengthPacked [172, 130, 1] 2 = ok 0 := C81_length_packed_zero _ _ (by decide) (by decide)

theorem varint_cases {bs : List UInt8} (h : IsVarint bs) (hl : bs.length ≤ 5) :
    (∃ a, bs = [a] ∧ a.toNat < 128) ∨ (∃ a b, bs = [a, b]) ∨ (∃ a b c, bs = [a, b, c]) ∨ (∃ a b c d, bs = [a, b, c, d]) ∨
    (∃ a b c d e, bs = [a, b, c, d, e] ∧ e.toNat < 128) := by
  cases h with
  | last h => exact Or.inl ⟨_, rfl, h⟩
  | more _ h => cases h with
    | last h => exact Or.inr (Or.inl ⟨_, _, rfl⟩)
    | more _ h => cases h with
      | last h => exact Or.inr (Or.inr (Or.inl ⟨_, _, _, rfl⟩))
      | more _ h => cases h with
        | last h => exact Or.inr (Or.inr (Or.inr (Or.inl ⟨_, _, _, _, rfl⟩)))
        | more _ h => cases h with
          | last h => exact Or.inr (Or.inr (Or.inr (Or.inr ⟨_, _, _, _, _, rfl, h⟩)))
          | more _ h => have := List.length_pos_iff.mpr (isVarint_ne h); simp only [List.length_cons] at hl; omega

theorem decode32_eq {bs rest : List UInt8} (h : IsVarint bs) (hl : bs.length ≤ 5) (iso : Bool) :
    varintDecode32 iso (bs ++ rest) =
      if iso = true ∧ bs.length = 5 ∧ 8 ≤ (bs.getLast?.getD 0).toNat then ub else ok (varintValue bs % 2 ^ 32, bs.length) := by
  have hlp := lengthPacked_varint (rest := rest) h hl
  have m : ∀ x : UInt8, x.toNat &&& 0x7f < 2 ^ 7 := fun x => by rw [show (0x7f : Nat) = 127 from rfl, and127]; exact Nat.mod_lt _ (by decide)
  have s1 : ∀ a b : UInt8, (a.toNat &&& 0x7f) ||| ((b.toNat &&& 0x7f) <<< 7) = (a.toNat % 128) + 2 ^ 7 * (b.toNat % 128) := fun a b => by
    rw [or_shift _ (m a)]; simp only [and127]
  rcases varint_cases h hl with ⟨a, rfl, h1⟩ | ⟨a, b, rfl⟩ | ⟨a, b, c, rfl⟩ | ⟨a, b, c, d, rfl⟩ | ⟨a, b, c, d, e, rfl, h1⟩
  · rw [varintDecode32, hlp]
    simp only [ok_bind, rd, List.cons_append, List.getElem?_cons_zero]
    rw [if_neg (by simp), if_neg (by simp)]
    simp only [and127, varintValue, List.length_singleton]
    congr 2; omega
  · rw [varintDecode32, hlp]
    simp only [ok_bind, rd, List.cons_append, List.getElem?_cons_zero, List.getElem?_cons_succ]
    rw [if_pos (by simp), if_neg (by simp), if_neg (by simp), s1]
    simp only [varintValue]
    congr 2; omega
  · rw [varintDecode32, hlp]
    simp only [ok_bind, rd, List.cons_append, List.getElem?_cons_zero, List.getElem?_cons_succ]
    rw [if_pos (by simp), if_pos (by simp), if_neg (by simp), if_neg (by simp), s1, or_shift _ (by omega)]
    simp only [and127, varintValue]
    congr 2; omega
  · rw [varintDecode32, hlp]
    simp only [ok_bind, rd, List.cons_append, List.getElem?_cons_zero, List.getElem?_cons_succ]
    rw [if_pos (by simp), if_pos (by simp), if_pos (by simp), if_neg (by simp), if_neg (by simp), s1, or_shift (i := 14) _ (by omega)]
    simp only [and127]
    rw [or_shift _ (by omega)]
    simp only [varintValue]
    congr 2; omega
  · rw [varintDecode32, hlp]
    simp only [ok_bind, rd, List.cons_append, List.getElem?_cons_zero, List.getElem?_cons_succ]
    rw [if_pos (by simp), if_pos (by simp), if_pos (by simp), if_pos (by simp), s1, or_shift (i := 14) _ (by omega)]
    simp only [and127]
    rw [or_shift (i := 21) _ (by omega)]
    have hsh : e.toNat <<< 28 % 2 ^ 32 = (e.toNat % 16) <<< 28 := by rw [Nat.shiftLeft_eq, Nat.shiftLeft_eq]; omega
    rw [hsh, or_shift _ (by omega)]
    have hiff : (iso = true ∧ e.toNat <<< 28 ≥ 2 ^ 31) ↔
        (iso = true ∧ ([a, b, c, d, e] : List UInt8).length = 5 ∧ 8 ≤ (([a, b, c, d, e] : List UInt8).getLast?.getD 0).toNat) := by
      rw [Nat.shiftLeft_eq]; simp; intro _; omega
    by_cases hc : iso = true ∧ e.toNat <<< 28 ≥ 2 ^ 31
    · rw [if_pos hc, if_pos (hiff.mp hc)]
    · rw [if_neg hc, if_neg (fun x => hc (hiff.mpr x))]
      rw [ok.injEq, Prod.mk.injEq]
      refine ⟨?_, rfl⟩
      simp only [varintValue]
      omega

/-- **C81.** `varint_decode32` on octets that begin with a variable-length integer of at most 5 octets, as compiled by GCC: its value (modulo
2^32) and length, without reading behind it. -/
theorem C81_decode32 (bs rest : List UInt8) (h : IsVarint bs) (hl : bs.length ≤ 5) :
    varintDecode32 false (bs ++ rest) = ok (varintValue bs % 2 ^ 32, bs.length) := by
  rw [decode32_eq h hl]; simp

/-- What ISO C leaves undefined: numbers of 2^31 and more (and only those, among 32-bit numbers). -/
theorem C81_decode32_iso (v : Nat) (hv : v < 2 ^ 32) (rest : List UInt8) :
    varintDecode32 true (varintEncode32 v ++ rest) = if v < 2 ^ 31 then ok (v, varintLength v) else ub := by
  obtain ⟨h1, h2⟩ := C81_encode32 v hv
  obtain ⟨k1, k2, k3, k4, -, -⟩ := C81_encode64 v (by omega)
  rw [h1] at h2 ⊢
  rw [decode32_eq k1 h2, k2, k4]
  have hm : v % 2 ^ 32 = v := Nat.mod_eq_of_lt hv
  rw [hm]
  have key : ((varintEncode64 v).length = 5 ∧ 8 ≤ ((varintEncode64 v).getLast?.getD 0).toNat) ↔ 2 ^ 31 ≤ v := by
    generalize varintEncode64 v = bs at k1 k2 h2
    subst k2
    rcases varint_cases k1 h2 with ⟨a, rfl, -⟩ | ⟨a, b, rfl⟩ | ⟨a, b, c, rfl⟩ | ⟨a, b, c, d, rfl⟩ | ⟨a, b, c, d, e', rfl, h5⟩ <;>
      simp only [varintValue] <;> simp <;> omega
  rw [k4] at key
  by_cases hc : v < 2 ^ 31
  · rw [if_neg (fun x => by have := key.mp ⟨x.2.1, x.2.2⟩; omega), if_pos hc]
  · rw [if_pos ⟨rfl, key.mpr (by omega)⟩, if_neg hc]

theorem decode64Loop_eq {data : List UInt8} : ∀ (bs rest : List UInt8) (i shift val : Nat), data.drop i = bs ++ rest → val < 2 ^ shift →
    shift + 7 * bs.length ≤ 70 →
    decode64Loop data bs.length i shift val = ok (if bs = [] then val else (val + 2 ^ shift * varintValue bs) % 2 ^ 64)
  | [], rest, i, shift, val, _, _, _ => rfl
  | c :: cs, rest, i, shift, val, hd, hv, hs => by
    have hi : i < data.length := by
      apply Nat.lt_of_not_le; intro hle; rw [List.drop_eq_nil_of_le hle] at hd; cases hd
    rw [List.drop_eq_getElem_cons hi] at hd
    injection hd with h1 h2
    simp only [List.length_cons] at hs
    have hs63 : shift ≤ 63 := by omega
    rw [List.length_cons, decode64Loop, rd, List.getElem?_eq_getElem hi, h1]
    simp only [ok_bind]
    obtain ⟨k, hk⟩ : ∃ k, k + shift = 64 := ⟨64 - shift, by omega⟩
    have hmod : ((c.toNat &&& 0x7f) <<< shift) % 2 ^ 64 = ((c.toNat % 128) % 2 ^ k) <<< shift := by
      rw [show (0x7f : Nat) = 127 from rfl, and127, Nat.shiftLeft_eq, Nat.shiftLeft_eq, ← hk, Nat.pow_add, Nat.mul_mod_mul_right]
    rw [hmod, or_shift _ hv]
    have hpow : (2 : Nat) ^ 64 = 2 ^ shift * 2 ^ k := by rw [← Nat.pow_add]; congr 1; omega
    by_cases hcs : cs = []
    · subst hcs
      simp only [List.length_nil, decode64Loop, ok.injEq, reduceCtorEq, if_false, varintValue, Nat.mul_zero, Nat.add_zero]
      rw [hpow]
      have e1 : val + 2 ^ shift * (c.toNat % 128 % 2 ^ k) < 2 ^ shift * 2 ^ k := by
        have : c.toNat % 128 % 2 ^ k + 1 ≤ 2 ^ k := Nat.mod_lt _ (Nat.two_pow_pos k)
        have := Nat.mul_le_mul_left (2 ^ shift) this
        rw [Nat.mul_add, Nat.mul_one] at this
        omega
      have e2 : 2 ^ shift * (c.toNat % 128) = 2 ^ shift * (c.toNat % 128 % 2 ^ k) + 2 ^ shift * 2 ^ k * (c.toNat % 128 / 2 ^ k) := by
        conv => lhs; rw [← Nat.mod_add_div (c.toNat % 128) (2 ^ k)]
        rw [Nat.mul_add, Nat.mul_assoc]
      rw [e2, ← Nat.add_assoc, Nat.add_mul_mod_self_left, Nat.mod_eq_of_lt e1]
    · have hlen := List.length_pos_iff.mpr hcs
      have h7 : c.toNat % 128 % 2 ^ k = c.toNat % 128 := by
        apply Nat.mod_eq_of_lt
        have : (2 : Nat) ^ 7 ≤ 2 ^ k := Nat.pow_le_pow_right (by decide) (by omega)
        have := Nat.mod_lt c.toNat (show 0 < 128 by decide)
        omega
      rw [h7]
      have hlt : val + 2 ^ shift * (c.toNat % 128) < 2 ^ (shift + 7) := by
        have : c.toNat % 128 + 1 ≤ 2 ^ 7 := Nat.mod_lt _ (by decide)
        have := Nat.mul_le_mul_left (2 ^ shift) this
        rw [Nat.mul_add, Nat.mul_one, ← Nat.pow_add] at this
        omega
      rw [decode64Loop_eq cs rest (i + 1) (shift + 7) _ h2 hlt (by omega), if_neg hcs, if_neg (by simp)]
      congr 2
      rw [varintValue, Nat.pow_add, Nat.mul_add]
      simp only [show (2 : Nat) ^ 7 = 128 from rfl, Nat.mul_assoc]
      omega

/-- **C81.** `varint_decode64` on octets that begin with a variable-length integer of at most 10 octets: its value (modulo 2^64) and length,
without reading behind it. -/
theorem C81_decode64 (bs rest : List UInt8) (h : IsVarint bs) (hl : bs.length ≤ 10) (iso : Bool) :
    varintDecode64 iso (bs ++ rest) = ok (varintValue bs % 2 ^ 64, bs.length) := by
  rw [varintDecode64, lengthPacked_varint h hl, ok_bind]
  by_cases h5 : bs.length < 5
  · rw [if_pos h5, decode32_eq h (by omega), if_neg (by rintro ⟨-, h, -⟩; omega)]
    have := @value_lt bs
    have hp : 128 ^ bs.length ≤ 128 ^ 4 := Nat.pow_le_pow_right (by decide) (by omega)
    have : (128 : Nat) ^ 4 = 2 ^ 28 := by decide
    congr 2
    omega
  · rw [if_neg h5]
    obtain ⟨a, b, c, d, t, rfl⟩ : ∃ a b c d t, bs = a :: b :: c :: d :: t := by
      match bs, h5 with
      | a :: b :: c :: d :: t, _ => exact ⟨a, b, c, d, t, rfl⟩
      | [], h => simp at h
      | [_], h => simp at h
      | [_, _], h => simp at h
      | [_, _, _], h => simp at h
    have ht : t ≠ [] := by rintro rfl; simp at h5
    simp only [rd, List.cons_append, List.getElem?_cons_zero, List.getElem?_cons_succ, ok_bind, show (0x7f : Nat) = 127 from rfl, and127]
    rw [or_shift (i := 7) _ (by omega), or_shift (i := 14) _ (by omega), or_shift (i := 21) _ (by omega)]
    have hlen : (a :: b :: c :: d :: t).length - 4 = t.length := by simp
    rw [hlen, decode64Loop_eq t rest 4 28 _ (by simp) (by omega) (by simp at hl; omega), if_neg ht, ok_bind]
    simp only [varintValue]
    congr 3
    omega

/-- A case of `C81_decode64`: a number written longer than necessary. -/
example : varintDecode64 false ([172, 128, 0] ++ [5]) = ok (44, 3) := by
  rw [C81_decode64 [172, 128, 0] [5] (.more (by decide) (.more (by decide) (.last (by decide)))) (by decide) false]; decide

/-- **C81.** Encoding and decoding a 64-bit number, whatever follows in memory. -/
theorem C81_round_trip64 (v : Nat) (hv : v < 2 ^ 64) (rest : List UInt8) (iso : Bool) :
    varintDecode64 iso (varintEncode64 v ++ rest) = ok (v, varintLength v) := by
  obtain ⟨k1, k2, k3, k4, -, k5⟩ := C81_encode64 v hv
  rw [C81_decode64 _ rest k1 (by omega), k2, k4, Nat.mod_eq_of_lt hv]

/-- **C81.** Encoding and decoding a 32-bit number, as compiled by GCC. -/
theorem C81_round_trip32 (v : Nat) (hv : v < 2 ^ 32) (rest : List UInt8) :
    varintDecode32 false (varintEncode32 v ++ rest) = ok (v, varintLength v) := by
  obtain ⟨h1, h2⟩ := C81_encode32 v hv
  obtain ⟨k1, k2, k3, k4, -, -⟩ := C81_encode64 v (by omega)
  rw [h1] at h2 ⊢
  rw [C81_decode32 _ rest k1 h2, k2, k4, Nat.mod_eq_of_lt hv]

/-- **C81.** Octets without the end of a variable-length integer are reported by length 0. -/
theorem C81_decode_none (data : List UInt8) (iso : Bool) :
    (5 ≤ data.length → (∀ c ∈ data.take 5, 128 ≤ c.toNat) → ∃ v, varintDecode32 iso data = ok (v, 0)) ∧
    (10 ≤ data.length → (∀ c ∈ data.take 10, 128 ≤ c.toNat) → ∃ v, varintDecode64 iso data = ok (v, 0)) := by
  have first : 5 ≤ data.length → (∀ c ∈ data.take 5, 128 ≤ c.toNat) → ∃ v, varintDecode32 iso data = ok (v, 0) := by
    intro h1 h2
    refine ⟨(data[0]'(by omega)).toNat &&& 0x7f, ?_⟩
    rw [varintDecode32, C81_length_packed_zero data 5 h1 h2, ok_bind, rd, List.getElem?_eq_getElem (show 0 < data.length by omega)]
    simp only [ok_bind]
    rw [if_neg (by omega)]
  refine ⟨first, fun h1 h2 => ?_⟩
  obtain ⟨v, hv⟩ := first (by omega) fun c hc => h2 c ((List.take_subset_take_left data (show 5 ≤ 10 by decide)) hc)
  exact ⟨v, by rw [varintDecode64, C81_length_packed_zero data 10 h1 h2, ok_bind, if_pos (by omega), hv]⟩

/-! Examples. -/

example : varintEncode64 300 = [172, 2] ∧ varintDecode64 true [172, 2, 9] = ok (300, 2) := by decide +kernel
example : varintDecode32 true (varintEncode32 (2 ^ 31)) = ub ∧ varintDecode32 false (varintEncode32 (2 ^ 31)) = ok (2 ^ 31, 5) := by decide +kernel
example : IsVarint [172, 2] ∧ Shortest [172, 2] ∧ ¬ Shortest [172, 0] ∧ varintValue [172, 2] = 300 :=
  ⟨.more (by decide) (.last (by decide)), by simp [Shortest], by simp [Shortest], by decide⟩

end Wdns
