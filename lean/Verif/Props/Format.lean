import Verif.Lemmas.Base64
import Verif.Lemmas.Base32
import Verif.Lemmas.Numerals
import Verif.Lemmas.Inet
import Verif.Lemmas.DecodeGrammar

/-!
# Properties C51 - C56: text encodings
-/

namespace Wdns
open Outcome Spec

/-! ## C51 -/

/-- **C51.** For every byte string, the base64 text the library renders is that of RFC 4648, of `4 * ceil(n/3)`
characters from the alphabet or `=`, and the library's decoder gives the byte string back; both stay inside their
buffers (`2n + 1` bytes to encode, text length + 1 to decode). -/
theorem C51_base64_round_trip (src : List UInt8) :
    bytesToBase64 src = ok (base64 src) ∧ (base64 src).length = 4 * ((src.length + 2) / 3) ∧
    (∀ c ∈ base64 src, c = 61 ∨ ∃ v < 64, c = b64Char v) ∧ base64StrToBytes (base64 src) = ok src := by
  refine ⟨bytesToBase64_eq src, base64_length src, ?_, ?_⟩
  · induction src using base64.induct with
    | case1 => simp [base64]
    | case2 a =>
      have := u8_lt a
      simp only [base64, List.mem_cons, List.not_mem_nil, or_false]
      rintro c (rfl | rfl | rfl | rfl)
      · exact Or.inr ⟨_, by omega, rfl⟩
      · exact Or.inr ⟨_, by omega, rfl⟩
      · exact Or.inl rfl
      · exact Or.inl rfl
    | case3 a b =>
      have := u8_lt a; have := u8_lt b
      simp only [base64, List.mem_cons, List.not_mem_nil, or_false]
      rintro c (rfl | rfl | rfl | rfl)
      · exact Or.inr ⟨_, by omega, rfl⟩
      · exact Or.inr ⟨_, by omega, rfl⟩
      · exact Or.inr ⟨_, by omega, rfl⟩
      · exact Or.inl rfl
    | case4 a b c rest ih =>
      have := u8_lt a; have := u8_lt b; have := u8_lt c
      intro x hx
      simp only [base64, List.mem_append, List.mem_cons, List.not_mem_nil, or_false] at hx
      rcases hx with (rfl | rfl | rfl | rfl) | hx
      · exact Or.inr ⟨_, by omega, rfl⟩
      · exact Or.inr ⟨_, by omega, rfl⟩
      · exact Or.inr ⟨_, by omega, rfl⟩
      · exact Or.inr ⟨_, by omega, rfl⟩
      · exact ih x hx
  · unfold base64StrToBytes
    rw [base64_decode_base64 src _ _ _ (by rw [base64_length]; simp only [List.length_nil]; omega)]
    rfl

example : base64 (ascii "foobar") = ascii "Zm9vYmFy" ∧ base64 (ascii "fooba") = ascii "Zm9vYmE=" ∧
    base64 (ascii "foob") = ascii "Zm9vYg==" := by decide
example : bytesToBase64 (ascii "foob") = ok (ascii "Zm9vYg==") := by decide

/-- **C51**, beyond the property: decoding any text that does not contain `{` stays inside the buffer and the
decoding table … -/
theorem C51_decode_safe (s : List UInt8) (h : ∀ c ∈ s, c ≠ 123) : ∃ r, base64StrToBytes s = ok r :=
  base64_decode_safe _ s .a 0 [] h (by simp)

/-- A case of `C51_decode_safe`: text that is not base64 at all. -/
example : ∃ r, base64StrToBytes (ascii "*=a=|}") = ok r := C51_decode_safe _ (by decide)

/-- **C51.** Decoding in full: characters outside the alphabet are skipped, wherever they are; the octets are those the digits fill.
Nothing else is ever the result. -/
theorem C51_decode_exact (s r : List UInt8) : base64StrToBytes s = ok r ↔ 123 ∉ s ∧ r = unpack64 (s.filterMap b64Val) :=
  base64StrToBytes_iff s r

/-- … and the character `{` makes the decoder read one past the end of its table. -/
theorem C51_decode_brace_overread : base64StrToBytes (ascii "ab{d") = ub := by decide

example : base64StrToBytes (ascii "Zm9v Yg==") = ok (ascii "foob") := by decide

/-! ## C52 -/

/-- **C52.** For every non-empty byte string the renderer's call of the base32hex encoder — a buffer of `2n + 1` bytes
— gives the unpadded text of RFC 4648, which fits the buffer. -/
theorem C52_base32_text (src : List UInt8) (h : src ≠ []) :
    base32Encode (2 * src.length + 1) src = ok (base32 src) ∧ (base32 src).length = (8 * src.length + 4) / 5 ∧
    (base32 src).length ≤ 2 * src.length + 1 ∧ ∀ c ∈ base32 src, ∃ v < 32, c = b32Char v := by
  have hl := base32_length src
  refine ⟨?_, hl, by omega, ?_⟩
  · rw [base32Encode_eq _ _ h, List.take_of_length_le (by omega)]
  · intro c hc
    rw [(base32_vals src).1] at hc
    obtain ⟨v, hv, rfl⟩ := List.mem_map.mp hc
    exact ⟨v, (base32_vals src).2 v hv, rfl⟩

/-- **C52.** Whatever buffer size it is given, the encoder writes no more than that: the first `size` characters. -/
theorem C52_base32_bounded (src : List UInt8) (size : Nat) (h : src ≠ []) :
    base32Encode size src = ok ((base32 src).take size) := base32Encode_eq size src h

/-- A case of `C52_base32_bounded`: room for three digits. -/
example : base32Encode 3 (ascii "foobar") = ok (ascii "CPN") := by rw [C52_base32_bounded _ _ (by decide)]; decide +kernel

/-- **C52.** Decoding in full, into a buffer of the size of the text: a text of digits (of either case) and `=` only, of which the digits
before the first `=` count. -/
theorem C52_decode_exact (t w : List UInt8) :
    base32Decode t.length t = some w ↔ (∀ c ∈ t, c = 61 ∨ b32Val c ≠ none) ∧ w = unpack32 ((t.takeWhile (· ≠ 61)).filterMap b32Val) :=
  base32Decode_iff t w

/-- **C52.** Decoding the text, or any text that differs from it in letter case only, into a buffer of the size of
the text (as the scanner does) gives the byte string back. -/
theorem C52_base32_round_trip (src t : List UInt8) (h : t.map lower = (base32 src).map lower) :
    base32Decode t.length t = some src := by
  have hl : t.length = (base32 src).length := by simpa using congrArg List.length h
  apply base32Decode_eq
  · have h1 := congrArg (List.map b32Map) h
    simp only [List.map_map] at h1
    have hf : (b32Map ∘ lower) = b32Map := funext asciiToupper_lower
    rwa [hf] at h1
  · rw [hl, base32_length]; omega

example : base32 (ascii "foobar") = ascii "CPNMUOJ1E8" := by decide +kernel
example : base32Decode 10 (ascii "cPnMuoJ1e8") = some (ascii "foobar") := by decide +kernel
/-- The encoder on zero bytes writes eight zeros (the renderer does not call it in this case). -/
example : base32Encode 20 [] = ok (ascii "00000000") := by decide +kernel

/-! ## C53 -/

theorem hexDecode_flatMap (u : Bool) (bs : List UInt8) : hexDecode (bs.flatMap (byteToHex · u)) = some bs ∧
    ∀ c ∈ bs.flatMap (byteToHex · u), HexCase u c := by
  induction bs with
  | nil => exact ⟨rfl, by simp⟩
  | cons b bs ih =>
    obtain ⟨x, y, e, h1, h2, h3, h4⟩ := byteToHex_spec b u
    rw [List.flatMap_cons, e]
    have hb := u8_lt b
    refine ⟨?_, ?_⟩
    · simp only [List.cons_append, List.nil_append, hexDecode, h1, h2, ih.1]
      rw [show 16 * (b.toNat / 16) + b.toNat % 16 = b.toNat by omega, UInt8.ofNat_toNat]
    · intro c hc
      simp only [List.cons_append, List.nil_append, List.mem_cons] at hc
      rcases hc with rfl | rfl | hc
      · cases u
        · exact (h4 rfl).1
        · exact (h3 rfl).1
      · cases u
        · exact (h4 rfl).2
        · exact (h3 rfl).2
      · exact ih.2 c hc

/-- **C53**, for every buffer of at least one byte: the bytes that fit — all of them if the buffer has at least
`2n + 1` bytes — are written as two hex digits each, in the requested case, and scan back; nothing is written
outside the buffer. -/
theorem C53_hex_partial (src : List UInt8) (upper : Bool) (size : Nat) (hs : 1 ≤ size) :
    ∃ t, bytesToHexStr src upper size = ok t ∧ t.length + 1 ≤ size ∧ (∀ c ∈ t, HexCase upper c) ∧
      hexDecode t = some (src.take ((size - 1) / 2)) ∧ (2 * src.length + 1 ≤ size → hexDecode t = some src) := by
  obtain ⟨h1, h2⟩ := hexDecode_flatMap upper (src.take ((size - 1) / 2))
  refine ⟨_, bytesToHexStr_eq src upper hs, ?_, h2, h1, ?_⟩
  · rw [flatMap_hex_length, List.length_take]; omega
  · intro h; rw [h1, List.take_of_length_le (by omega)]

/-- A case of `C53_hex_partial`: room for one octet and a half. -/
example : ∃ t, bytesToHexStr [0xab, 0x0f] false 4 = ok t ∧ hexDecode t = some [0xab] := by
  obtain ⟨t, h1, -, -, h2, -⟩ := C53_hex_partial [0xab, 0x0f] false 4 (by decide); exact ⟨t, h1, h2⟩

/-- **C53.** A buffer of size 0 is overrun (`dst_size - 1` wraps around). -/
theorem C53_hex_violated : bytesToHexStr [0xab] true 0 = ub := by decide

/-- **C53.** A 16-bit number in a buffer of five bytes or more. -/
theorem C53_uint16_hex (n : Nat) (hn : n < 65536) (upper : Bool) (size : Nat) (hs : 5 ≤ size) :
    ∃ t, uint16ToHexStr n upper size = ok t ∧ t.length = 4 ∧
      hexDecode t = some [UInt8.ofNat (n / 256), UInt8.ofNat (n % 256)] := by
  unfold uint16ToHexStr
  obtain ⟨h1, h2⟩ := hexDecode_flatMap upper [UInt8.ofNat (n / 256), UInt8.ofNat (n % 256)]
  refine ⟨_, bytesToHexStr_eq _ upper (by omega), ?_, ?_⟩
  · rw [flatMap_hex_length, List.length_take]; simp; omega
  · rw [List.take_of_length_le (by simp; omega), h1]

example : bytesToHexStr [0xab, 0x0f] true 5 = ok (ascii "AB0F") := by decide
example : bytesToHexStr [0xab, 0x0f] false 4 = ok (ascii "ab") := by decide

/-! ## C54 -/

/-- **C54.** In a buffer of `size ≥ 2` bytes with any contents, for a number of fewer than `size` digits:
`my_uint64_to_str` returns the number of digits, sets `start` so that the text from there is the decimal numeral
followed by a NUL that ends the buffer, and leaves the bytes before it unchanged. -/
theorem C54_decimal (num : Nat) (dst : List UInt8) (h1 : 2 ≤ dst.length) (h2 : num < 10 ^ (dst.length - 1)) :
    ∃ s start, uint64ToStr num dst = ok (dst.take start ++ s ++ [0], s.length, (start : Int)) ∧
      start + s.length + 1 = dst.length ∧ IsDecimal s num := by
  obtain ⟨s, start, e, e2, _, e4, _⟩ := uint64ToStr_spec num dst h1
  refine ⟨s, start, e, e2, ?_⟩
  rw [e4 h2]; exact decText_isDecimal num

/-- **C54.** Every caller in the library: an 8- or 16-bit number with `char tmp[sizeof("65535")]`, a 32-bit number
with `char tmp[sizeof("4294967295")]`; the text it appends is the decimal numeral. -/
theorem C54_decimal_callers (num : Nat) :
    (num < 65536 → ∃ s, decStr num 6 = ok s ∧ IsDecimal s num) ∧ (num < 2 ^ 32 → ∃ s, decStr num 11 = ok s ∧ IsDecimal s num) :=
  ⟨fun h => ⟨_, decStr_eq (by omega) (by omega), decText_isDecimal num⟩,
   fun h => ⟨_, decStr_eq (by omega) (by omega), decText_isDecimal num⟩⟩

/-- **C54.** The decimal numeral of a number is unique. -/
theorem C54_decimal_unique (s t : List UInt8) (n : Nat) (hs : IsDecimal s n) (ht : IsDecimal t n) : s = t := by
  rw [decText_unique s n hs, decText_unique t n ht]

/-- A case of `C54_decimal` and `C54_decimal_unique`. -/
example : ∃ s start, uint64ToStr 907 [1, 2, 3, 4, 5] = ok ([1, 2, 3, 4, 5].take start ++ s ++ [0], s.length, (start : Int)) ∧ IsDecimal s 907 := by
  obtain ⟨s, start, h, -, hd⟩ := C54_decimal 907 [1, 2, 3, 4, 5] (by decide) (by decide); exact ⟨s, start, h, hd⟩

/-- **C54**, the rest: in every non-empty buffer nothing is written outside the buffer (its length and the bytes
before `start` stay), even when the number does not fit. -/
theorem C54_bounds_partial (num : Nat) (dst : List UInt8) (h1 : 1 ≤ dst.length) :
    ∃ dst' nd start, uint64ToStr num dst = ok (dst', nd, start) ∧ dst'.length = dst.length ∧
      (2 ≤ dst.length → start + nd + 1 = (dst.length : Int)) ∧
      dst'.take start.toNat = dst.take start.toNat := by
  by_cases h : 2 ≤ dst.length
  · obtain ⟨s, start, e, e2, _, _, _⟩ := uint64ToStr_spec num dst h
    refine ⟨_, _, _, e, ?_, ?_, ?_⟩
    · simp; omega
    · intro _; omega
    · rw [Int.toNat_natCast, List.append_assoc, List.take_append_of_le_length (by simp; omega), List.take_take, Nat.min_self]
  · have hd : dst.length = 1 := by omega
    refine ⟨dst.set 0 0, 0, -1, ?_, by simp, fun hc => absurd hc h, by simp⟩
    unfold uint64ToStr
    rw [hd]

/-- A case of `C54_bounds_partial`: a number that does not fit stays within the buffer. -/
example : ∃ dst' nd start, uint64ToStr 123456 [1, 2, 3] = ok (dst', nd, start) ∧ dst'.length = 3 := by
  obtain ⟨d, n, s, h, hl, -⟩ := C54_bounds_partial 123456 [1, 2, 3] (by decide); exact ⟨d, n, s, h, hl⟩

/-- **C54.** A buffer of size 0 is underrun. -/
theorem C54_bounds_violated (num : Nat) : uint64ToStr num [] = ub := rfl

example : decStr 65535 6 = ok (ascii "65535") ∧ decStr 0 6 = ok (ascii "0") ∧ decStr 4294967295 11 = ok (ascii "4294967295") := by
  decide +kernel
/-- A number that does not fit loses its leading digits. -/
example : decStr 123456 6 = ok (ascii "23456") := by decide +kernel

/-! ## C55 -/

/-- **C55.** For every address (four octets, whatever follows them) and every buffer of at least 16 bytes,
`fast_inet4_ntop` writes the dotted quad of the decimal numerals of the octets, 7 to 15 characters, and `inet_pton`
gives the address back. -/
theorem C55_inet4 (a b c d : UInt8) (rest : List UInt8) (size : Nat) (hs : 16 ≤ size) :
    ∃ ta tb tc td, inet4Ntop (a :: b :: c :: d :: rest) size = ok (some (ta ++ [46] ++ tb ++ [46] ++ tc ++ [46] ++ td)) ∧
      IsDecimal ta a.toNat ∧ IsDecimal tb b.toNat ∧ IsDecimal tc c.toNat ∧ IsDecimal td d.toNat ∧
      (ta ++ [46] ++ tb ++ [46] ++ tc ++ [46] ++ td).length ≤ 15 ∧
      inetPton4 (ta ++ [46] ++ tb ++ [46] ++ tc ++ [46] ++ td) = some [a, b, c, d] :=
  ⟨_, _, _, _, inet4Ntop_eq _ size hs a b c d rest rfl, decText_isDecimal _, decText_isDecimal _, decText_isDecimal _,
    decText_isDecimal _, (dottedQuad_length a b c d).2, pton4_dottedQuad a b c d⟩

/-- A case of `C55_inet4`: the smallest buffer. -/
example : ∃ t, inet4Ntop [255, 255, 255, 255] 16 = ok (some t) ∧ t.length ≤ 15 := by
  obtain ⟨a, b, c, d, h, -, -, -, -, hl, -⟩ := C55_inet4 255 255 255 255 [] 16 (by decide); exact ⟨_, h, hl⟩

/-- **C55.** A buffer smaller than 16 bytes is refused (`NULL`) and left alone. -/
theorem C55_inet4_small (src : List UInt8) (size : Nat) (hs : size < 16) : inet4Ntop src size = ok none := by
  unfold inet4Ntop; rw [if_pos hs]

example : inet4Ntop [192, 0, 2, 255] 16 = ok (some (ascii "192.0.2.255")) := by decide

/-! ## C56 -/

/-- **C56.** For every address (sixteen octets, whatever follows them) and every buffer of at least 46 bytes,
`fast_inet6_ntop` writes a text of at most 45 characters, inside the buffer, from which `inet_pton` recovers the
address. -/
theorem C56_inet6 (src : List UInt8) (size : Nat) (hs : 46 ≤ size) (hl : 16 ≤ src.length) :
    ∃ t, inet6Ntop src size = ok (some t) ∧ t.length ≤ 45 ∧ inetPton6 t = some (src.take 16) :=
  let ⟨t, h1, h2, h3, _⟩ := inet6_roundtrip src size hs hl
  ⟨t, h1, h2, h3⟩

/-- A case of `C56_inet6`: the longest text. -/
example : ∃ t, inet6Ntop (List.replicate 16 255) 46 = ok (some t) ∧ inetPton6 t = some (List.replicate 16 255) := by
  obtain ⟨t, h, -, hp⟩ := C56_inet6 (List.replicate 16 255) 46 (by decide) (by decide); exact ⟨t, h, hp⟩

/-- **C56.** The text is that of RFC 5952 (`ip6Text`): lower-case hexadecimal words without leading zeros, the longest
run of at least two zero words — the first among equals — written as `::`, a dotted quad after `::` or `::ffff:`. -/
theorem C56_inet6_text (src : List UInt8) (size : Nat) (hs : 46 ≤ size) (hl : 16 ≤ src.length) :
    inet6Ntop src size = ok (some (ip6Text (src.take 16))) := by
  obtain ⟨t, h1, _, _, rfl⟩ := inet6_roundtrip src size hs hl
  exact h1

set_option synthInstance.maxHeartbeats 400000 in
set_option synthInstance.maxSize 2048 in
/-- **C56** (the choice of the run, in words of its own): the run of the text consists of zeros, has at least two
words, no run of zeros is longer, and none of the same length starts earlier; without a run no two adjacent words are
zero. -/
theorem C56_longest_run (ws : List Nat) (hl : ws.length = 8) :
    (∀ b l, zeroRun ws = some (b, l) → 2 ≤ l ∧ b + l ≤ 8 ∧ (∀ k, b ≤ k → k < b + l → ws[k]? = some 0) ∧
      ∀ b' l', b' + l' ≤ 8 → (∀ k, b' ≤ k → k < b' + l' → ws[k]? = some 0) → l' < l ∨ (l' = l ∧ b ≤ b')) ∧
    (zeroRun ws = none → ∀ k, ¬ (ws[k]? = some 0 ∧ ws[k + 1]? = some 0)) := by
  obtain ⟨n, hn, e⟩ := bits8_surj ws hl
  have hz : ∀ k : Nat, (ws.map zbit)[k]? = some 0 ↔ ws[k]? = some 0 := by
    intro k
    rw [List.getElem?_map]
    cases ws[k]? with
    | none => simp
    | some w => simp only [Option.map_some, Option.some.injEq, zbit]; split <;> simp_all
  have key : ∀ n < 256, (∀ p ∈ zeroRun (bits8 n), 2 ≤ p.2 ∧ p.1 + p.2 ≤ 8 ∧
        (∀ k < 8, p.1 ≤ k → k < p.1 + p.2 → (bits8 n)[k]? = some 0) ∧
          ∀ b' < 9, ∀ l' < 9, b' + l' ≤ 8 → (∀ k < 8, b' ≤ k → k < b' + l' → (bits8 n)[k]? = some 0) →
            l' < p.2 ∨ (l' = p.2 ∧ p.1 ≤ b')) ∧
      (zeroRun (bits8 n) = none → ∀ k < 8, ¬ ((bits8 n)[k]? = some 0 ∧ (bits8 n)[k + 1]? = some 0)) := by decide +kernel
  have hk := key n hn
  rw [← e, zeroRun_zbit] at hk
  simp only [hz] at hk
  constructor
  · intro b l hbl
    obtain ⟨h1, h2, h3, h4⟩ := hk.1 _ hbl
    refine ⟨h1, h2, fun k a1 a2 => h3 k (by omega) a1 a2, fun b' l' a1 a2 => ?_⟩
    exact h4 b' (by omega) l' (by omega) a1 fun k _ c1 c2 => a2 k c1 c2
  · intro hnone k hc
    refine hk.2 hnone k ?_ hc
    have := (List.getElem?_eq_some_iff.mp hc.1).1
    omega

/-- A case of `C56_longest_run`: of two runs of the same length the first. -/
example : zeroRun [1, 0, 0, 2, 3, 0, 0, 4] = some (1, 2) ∧ zeroRun [1, 0, 2, 0, 3, 0, 4, 0] = none := by decide

/-- **C56.** Hence different addresses have different texts. -/
theorem C56_inet6_injective (a b : List UInt8) (ha : a.length = 16) (hb : b.length = 16)
    (h : inet6Ntop a 46 = inet6Ntop b 46) : a = b := by
  obtain ⟨t, e1, _, e2⟩ := C56_inet6 a 46 (Nat.le_refl _) (by omega)
  obtain ⟨t', e3, _, e4⟩ := C56_inet6 b 46 (Nat.le_refl _) (by omega)
  rw [e1, e3] at h
  simp only [Outcome.ok.injEq, Option.some.injEq] at h
  subst h
  rw [e2] at e4
  rw [List.take_of_length_le (by omega), List.take_of_length_le (by omega)] at e4
  exact Option.some.inj e4

/-- **C56.** A buffer smaller than 46 bytes is refused (`NULL`). -/
theorem C56_inet6_small (src : List UInt8) (size : Nat) (hs : size < 46) : inet6Ntop src size = ok none := by
  unfold inet6Ntop; rw [if_pos hs]

example : inet6Ntop [0x20, 1, 0x0d, 0xb8, 0, 0, 0, 0, 0, 0, 0, 0, 0, 0, 0, 1] 46 = ok (some (ascii "2001:db8::1")) := by decide +kernel
example : inet6Ntop [0, 0, 0, 0, 0, 0, 0, 0, 0, 0, 0xff, 0xff, 192, 0, 2, 1] 46 = ok (some (ascii "::ffff:192.0.2.1")) := by
  decide +kernel
example : inet6Ntop (List.replicate 16 0) 46 = ok (some (ascii "::")) := by decide +kernel
example : inetPton6 (ascii "1:2:3:4:5:6:7::") = some [0, 1, 0, 2, 0, 3, 0, 4, 0, 5, 0, 6, 0, 7, 0, 0] := by decide +kernel
example : inetPton6 (ascii "1::2::3") = none ∧ inetPton6 (ascii ":1:2") = none ∧ inetPton4 (ascii "1.2.3.04") = none ∧
    inetPton4 (ascii "1.2.3.256") = none := by decide +kernel

end Wdns
