import Verif.Model.Getenv

/-!
# Specification: numbers as C writes them
-/

namespace Wdns.Spec

/-- A digit in base `b` and its value. -/
inductive CDigit (b : Nat) : UInt8 → Nat → Prop
  | dec (v : Nat) (h : v < 10) (hb : v < b) : CDigit b (UInt8.ofNat (48 + v)) v
  | low (v : Nat) (h : v < 6) (hb : 10 + v < b) : CDigit b (UInt8.ofNat (97 + v)) (10 + v)
  | up (v : Nat) (h : v < 6) (hb : 10 + v < b) : CDigit b (UInt8.ofNat (65 + v)) (10 + v)

/-- Digits in base `b`, most significant first, and their value. -/
inductive CDigits (b : Nat) : List UInt8 → Nat → Prop
  | nil : CDigits b [] 0
  | snoc {ds : List UInt8} {n : Nat} {c : UInt8} {v : Nat} : CDigits b ds n → CDigit b c v → CDigits b (ds ++ [c]) (n * b + v)

/-- A number: hexadecimal after `0x`, octal after `0`, else decimal. -/
inductive CNumber : List UInt8 → Nat → Prop
  | hex {x : UInt8} {ds : List UInt8} {n : Nat} : x = 120 ∨ x = 88 → ds ≠ [] → CDigits 16 ds n → CNumber (48 :: x :: ds) n
  | oct {ds : List UInt8} {n : Nat} : CDigits 8 ds n → CNumber (48 :: ds) n
  | dec {c : UInt8} {ds : List UInt8} {n : Nat} : c ≠ 48 → CDigits 10 (c :: ds) n → CNumber (c :: ds) n

/-- A number with white space and a sign in front of it, and its value in 64 bits: too large numbers are taken as the largest value, negative numbers are taken modulo
2^64. -/
inductive CSigned : List UInt8 → Nat → Prop
  | plus {ws t : List UInt8} {n : Nat} : (∀ c ∈ ws, isSpace c = true) → CNumber t n → CSigned (ws ++ t) (min n (2 ^ 64 - 1))
  | sign {ws t : List UInt8} {n : Nat} : (∀ c ∈ ws, isSpace c = true) → CNumber t n → CSigned (ws ++ 43 :: t) (min n (2 ^ 64 - 1))
  | minus {ws t : List UInt8} {n : Nat} : (∀ c ∈ ws, isSpace c = true) → CNumber t n →
      CSigned (ws ++ 45 :: t) (if n ≥ 2 ^ 64 then 2 ^ 64 - 1 else (2 ^ 64 - n) % 2 ^ 64)

end Wdns.Spec
