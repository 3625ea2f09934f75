import Verif.Basic

/-!
# The octet functions that the specifications share with the model

`lower`, `be16`, `be32` and `ascii` (Verif/Basic.lean) occur in both.  Here they are tied to notions that do not come from the model: Lean's own characters and
strings, and positional notation.
-/

namespace Wdns

/-- Case folding is that of ASCII, and leaves octets above 127 alone. -/
theorem C14_fold_ascii : (∀ n < 128, Char.ofNat (lower (UInt8.ofNat n)).toNat = (Char.ofNat n).toLower) ∧
    (∀ n < 256, 128 ≤ n → lower (UInt8.ofNat n) = UInt8.ofNat n) := by decide +kernel

/-- Sixteen bits, most significant octet first: `a` times 256 and `b`; every number below 65536 is read back from its two digits to the base 256. -/
theorem C29_big_endian (n : Nat) (h : n < 65536) : be16 (UInt8.ofNat (n / 256)) (UInt8.ofNat (n % 256)) = n := by
  unfold be16
  rw [UInt8.toNat_ofNat_of_lt' (by show _ < 256; omega), UInt8.toNat_ofNat_of_lt' (by show _ < 256; omega)]
  omega

/-- A case of `C29_big_endian`: 4660 is 0x12 0x34. -/
example : be16 0x12 0x34 = 4660 := C29_big_endian 4660 (by decide)

/-- Thirty-two bits, likewise. -/
theorem C29_big_endian32 (n : Nat) (h : n < 4294967296) :
    be32 (UInt8.ofNat (n / 16777216)) (UInt8.ofNat (n / 65536 % 256)) (UInt8.ofNat (n / 256 % 256)) (UInt8.ofNat (n % 256)) = n := by
  unfold be32
  rw [UInt8.toNat_ofNat_of_lt' (by show _ < 256; omega), UInt8.toNat_ofNat_of_lt' (by show _ < 256; omega),
    UInt8.toNat_ofNat_of_lt' (by show _ < 256; omega), UInt8.toNat_ofNat_of_lt' (by show _ < 256; omega)]
  omega

/-- A case of `C29_big_endian32`. -/
example : be32 0xde 0xad 0xbe 0xef = 3735928559 := C29_big_endian32 3735928559 (by decide)

/-- The octets of a literal are the codes of its characters. -/
theorem C43_ascii_codes (s : String) (h : ∀ c ∈ s.toList, c.toNat < 128) : (ascii s).map (fun b => Char.ofNat b.toNat) = s.toList := by
  unfold ascii
  generalize s.toList = l at h
  induction l with
  | nil => rfl
  | cons c l ih =>
    simp only [List.map_cons, List.mem_cons, forall_eq_or_imp] at h ⊢
    rw [ih h.2, UInt8.toNat_ofNat_of_lt' (by have := h.1; show _ < 256; omega), Char.ofNat_toNat]

/-- A case of `C43_ascii_codes`. -/
example : (ascii "key1=\\").map (fun b => Char.ofNat b.toNat) = "key1=\\".toList := C43_ascii_codes _ (by decide)

end Wdns
