import Verif.Basic
import Verif.Model.CrcTables

/-!
# Model: CRC-32C — libmy/crc32c-slicing.c, libmy/crc32c-sse42.c, libmy/crc32c.c

These files are part of the repository but not compiled into the library.  `uint32_t` and `uint64_t` values are natural numbers; a left shift
is reduced explicitly.  The octets of the chunk are a list, its address is `base`.  The loads through `uint32_t *`, `uint16_t *` and `uint64_t *`
are four, two and eight octets in the byte order of the machine; alignment and aliasing rules are not modelled.
-/

namespace Wdns
open Outcome

/-- `g_crc_slicing[k][i]`, `big` standing for `WORDS_BIGENDIAN` — libmy/crc32c-slicing.c:33-1083. -/
def crcTable (big : Bool) (k i : Nat) : Outcome Nat :=
  match (if big then crcTablesBe else crcTablesLe)[k]? with
  | some t => match t[i]? with
    | some v => ok v
    | none => ub
  | none => ub

/-- One octet — libmy/crc32c-slicing.c:1114 and 1151 (big endian), 1116 and 1161 (little endian). -/
def crcOctet (big : Bool) (crc : Nat) (c : UInt8) : Outcome Nat := do
  if big then
    let t ← crcTable big 0 (((crc >>> 24) ^^^ c.toNat) &&& 0xFF)
    ok (t ^^^ (crc <<< 8) % 2 ^ 32)
  else
    let t ← crcTable big 0 ((crc ^^^ c.toNat) &&& 0xFF)
    ok (t ^^^ (crc >>> 8))

/-- The loop up to the first 4-octet boundary — libmy/crc32c-slicing.c:1109-1118: the remaining length, `p - chunk` and `crc`. -/
def crcHead (big : Bool) (base : Nat) (mem : List UInt8) : Nat → Nat → Nat → Outcome (Nat × Nat × Nat)
  | 0, p, crc => ok (0, p, crc)
  | len + 1, p, crc =>
    if (base + p) &&& 3 ≠ 0 then do
      let c ← rd mem p
      let crc ← crcOctet big crc c
      crcHead big base mem len (p + 1) crc
    else ok (len + 1, p, crc)

/-- `*(uint32_t *)p`. -/
def load32 (big : Bool) (mem : List UInt8) (p : Nat) : Outcome Nat := do
  let c0 ← rd mem p
  let c1 ← rd mem (p + 1)
  let c2 ← rd mem (p + 2)
  let c3 ← rd mem (p + 3)
  if big then ok ((c0.toNat <<< 24) ^^^ (c1.toNat <<< 16) ^^^ (c2.toNat <<< 8) ^^^ c3.toNat)
  else ok (c0.toNat ^^^ (c1.toNat <<< 8) ^^^ (c2.toNat <<< 16) ^^^ (c3.toNat <<< 24))

/-- The loop over 8-octet chunks — libmy/crc32c-slicing.c:1121-1146, `n` chunks being left: `p - chunk` and `crc`. -/
def crcSlices (big : Bool) (mem : List UInt8) : Nat → Nat → Nat → Outcome (Nat × Nat)
  | 0, p, crc => ok (p, crc)
  | n + 1, p, crc => do
    let w ← load32 big mem p
    let crc := crc ^^^ w
    let next ← load32 big mem (p + 4)
    if big then                                                          -- lines 1128-1135
      let a ← crcTable big 4 (crc &&& 0xFF)
      let b ← crcTable big 5 ((crc >>> 8) &&& 0xFF)
      let c ← crcTable big 6 ((crc >>> 16) &&& 0xFF)
      let d ← crcTable big 7 (crc >>> 24)
      let e ← crcTable big 0 (next &&& 0xFF)
      let f ← crcTable big 1 ((next >>> 8) &&& 0xFF)
      let g ← crcTable big 2 ((next >>> 16) &&& 0xFF)
      let h ← crcTable big 3 (next >>> 24)
      crcSlices big mem n (p + 8) (a ^^^ b ^^^ c ^^^ d ^^^ e ^^^ f ^^^ g ^^^ h)
    else                                                                 -- lines 1137-1144
      let a ← crcTable big 7 (crc &&& 0xFF)
      let b ← crcTable big 6 ((crc >>> 8) &&& 0xFF)
      let c ← crcTable big 5 ((crc >>> 16) &&& 0xFF)
      let d ← crcTable big 4 (crc >>> 24)
      let e ← crcTable big 3 (next &&& 0xFF)
      let f ← crcTable big 2 ((next >>> 8) &&& 0xFF)
      let g ← crcTable big 1 ((next >>> 16) &&& 0xFF)
      let h ← crcTable big 0 (next >>> 24)
      crcSlices big mem n (p + 8) (a ^^^ b ^^^ c ^^^ d ^^^ e ^^^ f ^^^ g ^^^ h)

/-- The loop over the trailing octets — libmy/crc32c-slicing.c:1150-1151, 1160-1161. -/
def crcTail (big : Bool) (mem : List UInt8) : Nat → Nat → Nat → Outcome Nat
  | 0, _, crc => ok crc
  | len + 1, p, crc => do
    let c ← rd mem p
    let crc ← crcOctet big crc c
    crcTail big mem len (p + 1) crc

/-- The final byte swap of the big endian version — libmy/crc32c-slicing.c:1154-1158. -/
def crcSwap (crc : Nat) : Nat :=
  ((crc <<< 24) % 2 ^ 32 &&& 0xFF000000) ||| ((crc <<< 8) % 2 ^ 32 &&& 0x00FF0000) ||| ((crc >>> 8) &&& 0x0000FF00) |||
    ((crc >>> 24) &&& 0x000000FF)

/-- `my_crc32c_slicing` — libmy/crc32c-slicing.c:1099-1164; `~crc` on a `uint32_t` is `crc ^ 0xffffffff`. -/
def crcSlicing (big : Bool) (base : Nat) (mem : List UInt8) (len : Nat) : Outcome Nat := do
  let (len, p, crc) ← crcHead big base mem len 0 0xffffffff
  let (p, crc) ← crcSlices big mem (len / 8) p crc
  let crc ← crcTail big mem (len &&& 7) p crc
  ok ((if big then crcSwap crc else crc) ^^^ 0xffffffff)

/-- The instructions `crc32b`, `crc32w`, `crc32l`, `crc32q` (libmy/crc32c-sse42.c:98-120) on `n` bits of `value`.  Intel's manual: the bits of the
operand, lowest first, go into the remainder of division by 11EDC6F41H, kept bit-reflected in the low half of the register; the upper half of a
64-bit register is cleared. -/
def crcInsn : Nat → Nat → Nat → Nat
  | 0, crc, _ => crc
  | n + 1, crc, value => crcInsn n ((crc >>> 1) ^^^ (if (crc ^^^ value) % 2 = 1 then 0x82F63B78 else 0)) (value >>> 1)

/-- `*(uint16_t *)p`, little endian. -/
def load16 (mem : List UInt8) (p : Nat) : Outcome Nat := do
  let c0 ← rd mem p
  let c1 ← rd mem (p + 1)
  ok (c0.toNat ^^^ (c1.toNat <<< 8))

/-- `*(uint64_t *)p`, little endian. -/
def load64 (mem : List UInt8) (p : Nat) : Outcome Nat := do
  let lo ← load32 false mem p
  let hi ← load32 false mem (p + 4)
  ok (lo ^^^ (hi <<< 32))

/-- The loop of `my_crc32c_sse42` — libmy/crc32c-sse42.c:128-131. -/
def crcQuads (mem : List UInt8) : Nat → Nat → Nat → Outcome (Nat × Nat)
  | 0, p, crc => ok (p, crc)
  | n + 1, p, crc => do
    let v ← load64 mem p
    crcQuads mem n (p + 8) (crcInsn 64 crc v)

/-- `my_crc32c_sse42` — libmy/crc32c-sse42.c:122-162, with the fall-through of its `switch`. -/
def crcSse42 (mem : List UInt8) (len : Nat) : Outcome Nat := do
  let (p, crc) ← crcQuads mem (len / 8) 0 0xFFFFFFFF
  let byte (p crc : Nat) : Outcome Nat := do let v ← rd mem p; ok (crcInsn 8 crc v.toNat)
  let word (p crc : Nat) : Outcome Nat := do let v ← load16 mem p; ok (crcInsn 16 crc v)
  let long (p crc : Nat) : Outcome Nat := do let v ← load32 false mem p; ok (crcInsn 32 crc v)
  let crc ← match len &&& 7 with
    | 7 => do
      let crc ← byte p crc
      let crc ← word (p + 1) crc
      long (p + 3) crc
    | 6 => do
      let crc ← word p crc
      long (p + 2) crc
    | 4 => long p crc
    | 3 => do
      let crc ← byte p crc
      word (p + 1) crc
    | 2 => word p crc
    | 5 => do
      let crc ← long p crc
      byte (p + 4) crc
    | 1 => byte p crc
    | _ => ok crc
  ok (crc ^^^ 0xffffffff)

/-- `my_crc32c` through `my_crc32c_first` — libmy/crc32c.c:25-59: `sse42` is what `my_crc32c_sse42_supported` answers (only asked on
x86-64, which is little endian). -/
def crc32cAny (sse42 big : Bool) (base : Nat) (mem : List UInt8) (len : Nat) : Outcome Nat :=
  if sse42 && !big then crcSse42 mem len else crcSlicing big base mem len

end Wdns
