import Verif.Basic

/-!
# Model: text encodings of libmy

`char` is taken as signed (x86-64 Linux), as in the rest of the model.
-/

namespace Wdns
open Outcome

/-! ## base64 — libmy/b64_encode.c, libmy/b64_decode.c -/

/-- The string `encoding` — libmy/b64_encode.c:18. -/
def b64Encoding : List UInt8 := ascii "ABCDEFGHIJKLMNOPQRSTUVWXYZabcdefghijklmnopqrstuvwxyz0123456789+/"

/-- `base64_encode_value` — libmy/b64_encode.c:16-21, for values `≥ 0` (callers never pass others). -/
def b64EncodeValue (v : Nat) : UInt8 := if v > 63 then 61 else b64Encoding.getD v 0

/-- `base64_encodestep` — libmy/b64_encode.h:11-14. -/
inductive B64Step | A | B | C
  deriving DecidableEq, Repr

/-- `base64_encode_block` — libmy/b64_encode.c:23-75: step, `result`, the rest of the plain text, and what has
been written to the output buffer of `cap` bytes. -/
def b64EncodeBlock (cap : Nat) : B64Step → Nat → List UInt8 → List UInt8 → Outcome (B64Step × Nat × List UInt8)
  | s, r, [], out => ok (s, r, out)
  | .A, _, f :: fs, out => do
    let out ← wr cap out (b64EncodeValue ((f.toNat &&& 0xfc) >>> 2))
    b64EncodeBlock cap .B ((f.toNat &&& 0x03) <<< 4) fs out
  | .B, r, f :: fs, out => do
    let out ← wr cap out (b64EncodeValue (r ||| (f.toNat &&& 0xf0) >>> 4))
    b64EncodeBlock cap .C ((f.toNat &&& 0x0f) <<< 2) fs out
  | .C, r, f :: fs, out => do
    let out ← wr cap out (b64EncodeValue (r ||| (f.toNat &&& 0xc0) >>> 6))
    let out ← wr cap out (b64EncodeValue (f.toNat &&& 0x3f))
    b64EncodeBlock cap .A (f.toNat &&& 0x3f) fs out

/-- `base64_encode_blockend` — libmy/b64_encode.c:77-97, writing to the start of a buffer of `cap` bytes. -/
def b64EncodeBlockend (cap : Nat) (s : B64Step) (r : Nat) : Outcome (List UInt8) :=
  match s with
  | .A => ok []
  | .B => wrN cap [] [b64EncodeValue r, 61, 61]
  | .C => wrN cap [] [b64EncodeValue r, 61]

/-- `bytes_to_ubuf_base64` — wdns/rdata_to_ubuf.c:63-81: the text appended for `src_len` bytes `src`.
The buffer has `2 * src_len + 1` bytes and is used twice. -/
def bytesToBase64 (src : List UInt8) : Outcome (List UInt8) := do
  let cap := 2 * src.length + 1
  let (s, r, out) ← b64EncodeBlock cap .A 0 src []
  let fin ← b64EncodeBlockend cap s r
  ok (out ++ fin)

/-- The table `decoding` — libmy/b64_decode.c:12. -/
def b64Decoding : List Int :=
   [62, -1, -1, -1, 63, 52, 53, 54, 55, 56, 57, 58, 59, 60, 61, -1, -1, -1, -2, -1, -1, -1, 0, 1, 2, 3, 4, 5, 6,
    7, 8, 9, 10, 11, 12, 13, 14, 15, 16, 17, 18, 19, 20, 21, 22, 23, 24, 25, -1, -1, -1, -1, -1, -1, 26, 27, 28,
    29, 30, 31, 32, 33, 34, 35, 36, 37, 38, 39, 40, 41, 42, 43, 44, 45, 46, 47, 48, 49, 50, 51]

/-- `base64_decode_value` — libmy/b64_decode.c:10-17; `none` for a negative result.  With `char` signed,
`value_in -= 43` is negative or larger than 80 for bytes below 43 and above 123; the byte 123 gives the index 80,
one past the end of the table (`>` instead of `>=` in line 15). -/
def b64DecodeValue (c : UInt8) : Outcome (Option Nat) :=
  if c.toNat < 43 ∨ c.toNat - 43 > 80 then ok none
  else
    match b64Decoding[c.toNat - 43]? with
    | none => ub
    | some v => ok (if v < 0 then none else some v.toNat)

/-- `base64_decodestep` — libmy/b64_decode.h:11-14. -/
inductive B64DStep | a | b | c | d
  deriving DecidableEq, Repr

/-- The loop of `base64_decode_block` — libmy/b64_decode.c:25-87, on a buffer of `cap` bytes; `out` are the finished
bytes, `cur` is `*plainchar` (the byte at offset `out.length`).  Reading that byte at the end (e.g. line 42) is
`ub` only outside the buffer. -/
def b64DecodeLoop (cap : Nat) : B64DStep → Nat → List UInt8 → List UInt8 → Outcome (List UInt8)
  | _, _, [], out => if out.length < cap then ok out else ub
  | s, cur, c :: cs, out => do
    let v ← b64DecodeValue c
    match v with
    | none => b64DecodeLoop cap s cur cs out
    | some f =>
      match s with
      | .a => if out.length < cap then b64DecodeLoop cap .b ((f &&& 0x3f) <<< 2) cs out else ub
      | .b =>
        if out.length + 1 < cap then
          b64DecodeLoop cap .c ((f &&& 0x0f) <<< 4) cs (out ++ [UInt8.ofNat (cur ||| (f &&& 0x30) >>> 4)])
        else ub
      | .c =>
        if out.length + 1 < cap then
          b64DecodeLoop cap .d ((f &&& 0x03) <<< 6) cs (out ++ [UInt8.ofNat (cur ||| (f &&& 0x3c) >>> 2)])
        else ub
      | .d =>
        if out.length < cap then b64DecodeLoop cap .a 0 cs (out ++ [UInt8.ofNat (cur ||| f &&& 0x3f)])
        else ub

/-- `base64_str_to_ubuf` — wdns/str_to_rdata_ubuf.c:82-97: the bytes appended; the buffer has `str_len + 1` bytes. -/
def base64StrToBytes (str : List UInt8) : Outcome (List UInt8) :=
  b64DecodeLoop (str.length + 1) .a 0 str []

/-! ## base32hex — libmy/b32_encode.c, libmy/b32_decode.c -/

/-- `base32_alphabet` — libmy/b32_encode.c:56-61. -/
def b32Alphabet : List UInt8 := ascii "0123456789ABCDEFGHIJKLMNOPQRSTUV"

/-- The eight values of one group — libmy/b32_encode.c:105-112. -/
def b32Group (x : Nat → Nat) : List Nat :=
  [x 0 >>> 3, ((x 0 &&& 0x07) <<< 2) ||| (x 1 >>> 6), (x 1 >>> 1) &&& 0x1f, ((x 1 &&& 0x01) <<< 4) ||| (x 2 >>> 4),
   ((x 2 &&& 0x0f) <<< 1) ||| (x 3 >>> 7), (x 3 >>> 2) &&& 0x1f, ((x 3 &&& 0x03) <<< 3) ||| (x 4 >>> 5), x 4 &&& 0x1f]

/-- The number of digits of the group — libmy/b32_encode.c:87-101 (`left` is `len - i`). -/
def b32Digits (left : Nat) : Nat :=
  match left with
  | 4 => 7
  | 3 => 5
  | 2 => 4
  | 1 => 2
  | _ => 8

/-- The loop of `base32_encode` — libmy/b32_encode.c:81-123; the output stops at `size` characters. -/
def b32EncodeLoop (size : Nat) : Nat → List UInt8 → List UInt8 → Outcome (List UInt8)
  | 0, _, _ => hang
  | fuel + 1, p, out =>
    let g := (b32Group fun j => (p.getD j 0).toNat).map fun v => b32Alphabet.getD v 0
    let out := out ++ (g.take (b32Digits p.length)).take (size - out.length)
    if out.length = size then ok out
    else if (p.drop 5).length > 0 then b32EncodeLoop size fuel (p.drop 5) out
    else ok out

/-- `base32_encode` — libmy/b32_encode.c:73-126. -/
def base32Encode (size : Nat) (data : List UInt8) : Outcome (List UInt8) :=
  b32EncodeLoop size (data.length + 1) data []

/-- `ascii_toupper` — libmy/b32_decode.c:82-86. -/
def asciiToupper (c : Nat) : Nat := if c ≥ 97 ∧ c ≤ 122 then c - 32 else c

/-- The entry of `base32_map` for `c` — libmy/b32_decode.c:126-134 (255 if not in the alphabet). -/
def b32Map (c : UInt8) : Nat :=
  match b32Alphabet.findIdx? (fun a => a.toNat = asciiToupper c.toNat) with
  | some i => i
  | none => 255

/-- The bytes of one group of `si` digits `s` — libmy/b32_decode.c:158-197.  `char` arithmetic; results are
truncated to a byte. -/
def b32Bytes (si : Nat) (s : Nat → Nat) : List UInt8 :=
  let b0 := ((s 0 <<< 3) &&& 0xf8) ||| ((s 1 >>> 2) &&& 0x07)
  let b1 := ((s 1 &&& 0x03) <<< 6) ||| ((s 2 &&& 0x1f) <<< 1) ||| ((s 3 >>> 4) &&& 1)
  let b2 := ((s 3 &&& 0x0f) <<< 4) ||| ((s 4 >>> 1) &&& 0x0f)
  let b3 := ((s 4 &&& 1) <<< 7) ||| ((s 5 &&& 0x1f) <<< 2) ||| ((s 6 >>> 3) &&& 0x03)
  let b4 := ((s 6 &&& 0x07) <<< 5) ||| (s 7 &&& 0x1f)
  let n := if si < 2 then 0 else if si < 4 then 1 else if si < 5 then 2 else if si < 7 then 3 else if si < 8 then 4 else 5
  ([b0, b1, b2, b3, b4].take n).map UInt8.ofNat

/-- The loop of `base32_decode` — libmy/b32_decode.c:140-208: rest of the input, the digits collected in `s`
(`si` is its length), whether padding was seen, output (at most `size` bytes).  `none` is the return value -1.  If
`si` digits are collected at position 8 the store `s[si++]` is in bounds because the group is flushed. -/
def b32DecodeLoop (size : Nat) : List UInt8 → List Nat → Bool → List UInt8 → Option (List UInt8)
  | [], _, _, out => some out
  | c :: cs, s, pad, out =>
    let step (s : List Nat) (pad : Bool) : Option (List UInt8) :=
      if s.length = 8 ∨ pad ∨ cs = [] then
        let out := out ++ (b32Bytes s.length fun j => s.getD j 0).take (size - out.length)
        if out.length = size then some out else b32DecodeLoop size cs [] pad out
      else if out.length = size then some out else b32DecodeLoop size cs s pad out
    if c = 61 then step s true
    else if b32Map c = 255 then none
    else step (s ++ [b32Map c]) pad

/-- `base32_decode` — libmy/b32_decode.c:114-211. -/
def base32Decode (size : Nat) (data : List UInt8) : Option (List UInt8) := b32DecodeLoop size data [] false []

/-! ## hex and decimal — libmy/my_format.c -/

/-- The tables of `_my_byte_to_hex_str` — libmy/my_format.c:25-26. -/
def hexTable (upper : Bool) : List UInt8 := if upper then ascii "0123456789ABCDEF" else ascii "0123456789abcdef"

/-- `_my_byte_to_hex_str` — libmy/my_format.c:22-33. -/
def byteToHex (b : UInt8) (upper : Bool) : List UInt8 :=
  [(hexTable upper).getD ((b.toNat >>> 4) &&& 0xf) 0, (hexTable upper).getD (b.toNat &&& 0xf) 0]

/-- The loop of libmy/my_format.c:43-44. -/
def hexLoop (upper : Bool) (cap : Nat) : List UInt8 → List UInt8 → Outcome (List UInt8)
  | [], out => ok out
  | b :: bs, out => do
    let out ← wrN cap out (byteToHex b upper)
    hexLoop upper cap bs out

/-- `my_bytes_to_hex_str` — libmy/my_format.c:35-49, for a buffer of `dstSize` bytes; the result is the string
written, the return value is its length.  `dst_size - 1` is a `size_t`: for `dst_size = 0` it wraps. -/
def bytesToHexStr (src : List UInt8) (upper : Bool) (dstSize : Nat) : Outcome (List UInt8) := do
  let lim := if dstSize = 0 then 2 ^ 64 - 1 else dstSize - 1
  let len := if src.length * 2 > lim then lim / 2 else src.length
  let out ← hexLoop upper dstSize (src.take len) []
  let _ ← wr dstSize out 0                                         -- line 46
  ok out

/-- `my_uint16_to_hex_str` — libmy/my_format.c:51-57: the bytes of the number in network order (`htons` on a
little-endian host; the same on a big-endian one). -/
def uint16ToHexStr (num : Nat) (upper : Bool) (dstSize : Nat) : Outcome (List UInt8) :=
  bytesToHexStr [UInt8.ofNat (num / 256), UInt8.ofNat (num % 256)] upper dstSize

/-- The loop of `my_uint64_to_str` — libmy/my_format.c:67-77; `p` is `ptr - dst`. -/
def u64Loop : Nat → Nat → Nat → List UInt8 → List UInt8 × Nat × Nat
  | 0, num, nd, dst => (dst.set 0 (UInt8.ofNat (48 + num % 10)), nd + 1, 0)
  | p + 1, num, nd, dst =>
    let dst := dst.set (p + 1) (UInt8.ofNat (48 + num % 10))
    if num / 10 = 0 then (dst, nd + 1, p + 1) else u64Loop p (num / 10) (nd + 1) dst

/-- `my_uint64_to_str` — libmy/my_format.c:59-83, on the buffer `dst`: the new contents, the return value and
`*start - dst`. -/
def uint64ToStr (num : Nat) (dst : List UInt8) : Outcome (List UInt8 × Nat × Int) :=
  match dst.length with
  | 0 => ub
  | 1 => ok (dst.set 0 0, 0, -1)
  | n + 2 =>
    let r := u64Loop n num 0 (dst.set (n + 1) 0)
    ok (r.1, r.2.1, r.2.2)

/-- The way the callers use it: `ubuf_append_cstr(u, start, ndigits)`, e.g. wdns/rdata_to_ubuf.c:305-306,
`tmp` being an (uninitialised) array of `size` bytes. -/
def decStr (num size : Nat) : Outcome (List UInt8) := do
  let (dst, nd, start) ← uint64ToStr num (List.replicate size 0)
  if start < 0 then ub else rdN dst start.toNat nd

/-! ## IP addresses — libmy/fast_inet_ntop.c -/

/-- `numstr` — libmy/fast_inet_ntop.c:54-65. -/
def numstr : List (UInt8 × UInt8) :=
   [(48, 48), (48, 49), (48, 50), (48, 51), (48, 52), (48, 53), (48, 54), (48, 55), (48, 56), (48, 57), (49, 48),
    (49, 49), (49, 50), (49, 51), (49, 52), (49, 53), (49, 54), (49, 55), (49, 56), (49, 57), (50, 48), (50, 49),
    (50, 50), (50, 51), (50, 52), (50, 53), (50, 54), (50, 55), (50, 56), (50, 57), (51, 48), (51, 49), (51, 50),
    (51, 51), (51, 52), (51, 53), (51, 54), (51, 55), (51, 56), (51, 57), (52, 48), (52, 49), (52, 50), (52, 51),
    (52, 52), (52, 53), (52, 54), (52, 55), (52, 56), (52, 57), (53, 48), (53, 49), (53, 50), (53, 51), (53, 52),
    (53, 53), (53, 54), (53, 55), (53, 56), (53, 57), (54, 48), (54, 49), (54, 50), (54, 51), (54, 52), (54, 53),
    (54, 54), (54, 55), (54, 56), (54, 57), (55, 48), (55, 49), (55, 50), (55, 51), (55, 52), (55, 53), (55, 54),
    (55, 55), (55, 56), (55, 57), (56, 48), (56, 49), (56, 50), (56, 51), (56, 52), (56, 53), (56, 54), (56, 55),
    (56, 56), (56, 57), (57, 48), (57, 49), (57, 50), (57, 51), (57, 52), (57, 53), (57, 54), (57, 55), (57, 56),
    (57, 57)]

/-- One octet — libmy/fast_inet_ntop.c:76-94 (without the dot). -/
def inet4Octet (b : Nat) : List UInt8 :=
  let pr : List UInt8 × Nat := if b ≥ 200 then ([50], b - 200) else if b ≥ 100 then ([49], b - 100) else ([], b)
  let p := numstr.getD pr.2 (0, 0)
  pr.1 ++ (if b ≥ 10 then [p.1] else []) ++ [p.2]

/-- `fast_inet4_ntop` — libmy/fast_inet_ntop.c:67-101: the string in a buffer of `size` bytes; `none` is
`NULL`. -/
def inet4Ntop (src : List UInt8) (size : Nat) : Outcome (Option (List UInt8)) :=
  if size < 16 then ok none
  else do
    let b ← rdN src 0 4
    let o := fun i => inet4Octet (b.getD i 0).toNat
    let s ← wrN size [] (o 0 ++ [46] ++ o 1 ++ [46] ++ o 2 ++ [46] ++ o 3)
    let _ ← wr size s 0
    ok (some s)

/-- The loop of `print_hex_uint16_t` — libmy/fast_inet_ntop.c:44-50. -/
def hex16Loop : Nat → Nat → Nat → Nat → List UInt8 → List UInt8 × Nat
  | 0, _, _, cnt, cells => (cells, cnt)
  | fuel + 1, num, ndx, cnt, cells =>
    let cells := cells.set ndx ((hexTable false).getD (num &&& 0xf) 0)
    if num >>> 4 ≠ 0 then hex16Loop fuel (num >>> 4) (ndx - 1) (cnt + 1) cells else (cells, cnt + 1)

/-- `print_hex_uint16_t` — libmy/fast_inet_ntop.c:27-52: the characters between `dst` and the returned pointer. -/
def hex16 (num : Nat) : List UInt8 :=
  let ndx := if num ≥ 0x1000 then 3 else if num ≥ 0x0100 then 2 else if num ≥ 0x0010 then 1 else 0
  let r := hex16Loop 4 num ndx 0 [0, 0, 0, 0]
  r.1.take r.2

/-- `if (best.base == -1 || cur.len > best.len) best = cur` — libmy/fast_inet_ntop.c:150-151, 157-158. -/
def betterRun (best cur : Option (Nat × Nat)) : Option (Nat × Nat) :=
  match best, cur with
  | b, none => b
  | none, c => c
  | some b, some c => if c.2 > b.2 then some c else some b

/-- The search for the longest run of zero words — libmy/fast_inet_ntop.c:142-159; runs are (base, len), `none` is
base = -1. -/
def runLoop : Nat → List Nat → Option (Nat × Nat) → Option (Nat × Nat) → Option (Nat × Nat)
  | _, [], best, cur => betterRun best cur
  | i, w :: ws, best, cur =>
    if w = 0 then
      runLoop (i + 1) ws best (match cur with | none => some (i, 1) | some (b, l) => some (b, l + 1))
    else runLoop (i + 1) ws (betterRun best cur) none

/-- libmy/fast_inet_ntop.c:136-161. -/
def bestRun (words : List Nat) : Option (Nat × Nat) :=
  match runLoop 0 words none none with
  | none => none
  | some (b, l) => if l < 2 then none else some (b, l)

/-- `best.base != -1 && i >= best.base && i < (best.base + best.len)` — libmy/fast_inet_ntop.c:168-169. -/
def inRun (best : Option (Nat × Nat)) (i : Nat) : Bool :=
  match best with
  | some (b, l) => i ≥ b ∧ i < b + l
  | none => false

/-- `best.base != -1 && (best.base + best.len) == 8` — libmy/fast_inet_ntop.c:193-194. -/
def runAtEnd (best : Option (Nat × Nat)) : Bool :=
  match best with
  | some (b, l) => b + l = 8
  | none => false

/-- The formatting loop — libmy/fast_inet_ntop.c:166-191: `n` words (from index `i`) left to do, `src` the 16
bytes. -/
def fmt6Loop (src : List UInt8) (words : List Nat) (best : Option (Nat × Nat)) (size : Nat) :
    Nat → Nat → List UInt8 → Outcome (Option (List UInt8))
  | 0, _, out => ok (some out)
  | n + 1, i, out =>
    if inRun best i then do
      let out ← if best.map (·.1) = some i then wr size out 58 else ok out
      fmt6Loop src words best size n (i + 1) out
    else do
      let out ← if i ≠ 0 then wr size out 58 else ok out
      if i = 6 ∧ (best = some (0, 6) ∨ (best = some (0, 5) ∧ words.getD 5 0 = 0xffff)) then do
        match ← inet4Ntop (src.drop 12) (size - out.length) with
        | none => ok none
        | some s => ok (some (out ++ s))
      else do
        let out ← wrN size out (hex16 (words.getD i 0))
        fmt6Loop src words best size n (i + 1) out

/-- `fast_inet6_ntop` — libmy/fast_inet_ntop.c:104-206. -/
def inet6Ntop (src : List UInt8) (size : Nat) : Outcome (Option (List UInt8)) :=
  if size < 46 then ok none
  else do
    let b ← rdN src 0 16
    let words := (List.range 8).map fun k => ((b.getD (2 * k) 0).toNat <<< 8) ||| (b.getD (2 * k + 1) 0).toNat
    let best := bestRun words
    match ← fmt6Loop b words best size 8 0 [] with
    | none => ok none
    | some out => do
      let out ← if runAtEnd best then wr size out 58 else ok out
      let _ ← wr size out 0
      ok (some out)

end Wdns
