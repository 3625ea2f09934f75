import Verif.Lemmas.AddrGrammar
import Verif.Props.StringGrammar

/-!
# C72: which texts are IPv4 and IPv6 addresses
-/

namespace Wdns
open Outcome Spec

theorem word_dropSpace {s : List UInt8} (h : IsWord s) : s.dropWhile isSpace = s := by
  cases s with
  | nil => rfl
  | cons c s =>
    have : isSpace c = false := by
      cases hc : isSpace c with
      | false => rfl
      | true => exact absurd ((isSpace_iff c).mp hc) (h.2 c (by simp))
    rw [List.dropWhile_cons, this]; rfl

theorem word_tok {s : List UInt8} (h : IsWord s) : tokOf s = s ∧ afterTok s = [] := by
  have hd : ∀ c ∈ s, isDelim c = false := by
    intro c hc
    cases hb : isDelim c with
    | false => rfl
    | true =>
      refine absurd ?_ (h.2 c hc)
      rcases (isDelim_iff c).mp hb with rfl | rfl | rfl | rfl <;> decide
  clear h
  unfold tokOf afterTok
  induction s with
  | nil => simp
  | cons c s ih =>
    have := ih fun c hc => hd c (by simp [hc])
    simp [hd c (by simp), this.1, this.2]

/-- **C72.** `wdns_str_to_rdata` reads a word as the rdata of an A record exactly when it is a dotted quad — four decimal numbers up to
255, no superfluous zeros, nothing else — and gives the four octets. -/
theorem C72_ipv4_exact (s r : List UInt8) (hw : IsWord s) : strToRdata s 1 1 = ok r ↔ Ip4Reads s r := by
  rw [strToRdata_iff (d := ⟨1, [.ipv4]⟩) rfl rfl, ← inetPton4_iff]
  simp only [sFields, word_dropSpace hw, if_neg hw.1, sField, (word_tok hw).1, (word_tok hw).2]
  cases inetPton4 s <;> simp

/-- A case of `C72_ipv4_exact`: an address in the text form reads as itself. -/
example : Ip4Reads (ascii "192.0.2.33") [192, 0, 2, 33] :=
  (C72_ipv4_exact (ascii "192.0.2.33") _ (by unfold IsWord; decide)).1 (by decide +kernel)

/-- **C72.** `wdns_str_to_rdata` reads a word as the rdata of an AAAA record exactly when it is an IPv6 address in a text form of
RFC 4291 — eight groups, or one `::` for at least one group of zeros, the last four octets possibly as a dotted quad — and gives the
sixteen octets. -/
theorem C72_ipv6_exact (s r : List UInt8) (hw : IsWord s) : strToRdata s 28 1 = ok r ↔ Ip6Reads s r := by
  rw [strToRdata_iff (d := ⟨1, [.ipv6]⟩) rfl rfl, ← inetPton6_iff]
  simp only [sFields, word_dropSpace hw, if_neg hw.1, sField, (word_tok hw).1]
  cases inetPton6 s <;> simp

theorem C72_ipv6_length (s r : List UInt8) (h : Ip6Reads s r) : r.length = 16 := by
  cases h with
  | full _ h => exact h
  | short _ _ h => simp; omega

/-- A case of `C72_ipv6_exact` and of the hypothesis of `C72_ipv6_length`. -/
example : Ip6Reads (ascii "2001:DB8::1") [0x20, 1, 0xd, 0xb8, 0, 0, 0, 0, 0, 0, 0, 0, 0, 0, 0, 1] :=
  (C72_ipv6_exact (ascii "2001:DB8::1") _ (by unfold IsWord; decide)).1 (by decide +kernel)

/-- A text has at most one reading as an address. -/
theorem C72_unique (s r r' : List UInt8) : (Ip4Reads s r → Ip4Reads s r' → r = r') ∧ (Ip6Reads s r → Ip6Reads s r' → r = r') := by
  constructor
  · intro h h'
    rw [← inetPton4_iff] at h h'
    exact Option.some.inj (h.symm.trans h')
  · intro h h'
    rw [← inetPton6_iff] at h h'
    exact Option.some.inj (h.symm.trans h')

/-- Concrete addresses, accepted and refused. -/
example : strToRdata (ascii "192.0.2.33") 1 1 = ok [192, 0, 2, 33] ∧ strToRdata (ascii "192.0.02.33") 1 1 = err .parseError ∧
    strToRdata (ascii "192.0.2.256") 1 1 = err .parseError ∧ strToRdata (ascii "192.0.2") 1 1 = err .parseError ∧
    strToRdata (ascii "2001:DB8::1") 28 1 = ok [0x20, 1, 0xd, 0xb8, 0, 0, 0, 0, 0, 0, 0, 0, 0, 0, 0, 1] ∧
    strToRdata (ascii "::ffff:1.2.3.4") 28 1 = ok [0, 0, 0, 0, 0, 0, 0, 0, 0, 0, 255, 255, 1, 2, 3, 4] ∧
    strToRdata (ascii "1:2:3:4:5:6:7::8") 28 1 = err .parseError ∧ strToRdata (ascii "12345::") 28 1 = err .parseError ∧
    strToRdata (ascii "1::2::3") 28 1 = err .parseError := by decide +kernel

example : IsWord (ascii "::ffff:1.2.3.4") := by unfold IsWord; decide

end Wdns
