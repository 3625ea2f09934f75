import Verif.Model.Crc

/-!
# Model: Bob Jenkins's hashes — libmy/lookup3.c

The file is part of the repository but not compiled into the library.  `uint32_t` values are 32-bit vectors.  The octets that may be read through
`key` are a list (the key itself and whatever follows it in the same object), its address is `base`.  The loads through `uint32_t *` and
`uint16_t *` are `load32` and `load16` of Model/Crc.  The bodies of `my_hashlittle` and `my_hashlittle2` are the same text except for the seeds
and the results and are modelled once.  This file is written by tools/gen_lookup.py.
-/

namespace Wdns
open Outcome

/-- The registers `a`, `b`, `c` — libmy/lookup3.c:185, 291, 477, 657. -/
abbrev Lk := BitVec 32 × BitVec 32 × BitVec 32

/-- `uint32_t` from a value read from memory. -/
abbrev lk32 (n : Nat) : BitVec 32 := BitVec.ofNat 32 n

/-- The macro `rot` — libmy/lookup3.c:75. -/
def lkRot (x : BitVec 32) (k : Nat) : BitVec 32 := (x <<< k) ||| (x >>> (32 - k))

/-- The macro `mix` — libmy/lookup3.c:121-129. -/
def lkMix (s : Lk) : Lk :=
  let ⟨a, b, c⟩ := s
  let a := a - c; let a := a ^^^ lkRot c 4; let c := c + b
  let b := b - a; let b := b ^^^ lkRot a 6; let a := a + c
  let c := c - b; let c := c ^^^ lkRot b 8; let b := b + a
  let a := a - c; let a := a ^^^ lkRot c 16; let c := c + b
  let b := b - a; let b := b ^^^ lkRot a 19; let a := a + c
  let c := c - b; let c := c ^^^ lkRot b 4; let b := b + a
  ⟨a, b, c⟩

/-- The macro `final` — libmy/lookup3.c:156-165. -/
def lkFinal (s : Lk) : Lk :=
  let ⟨a, b, c⟩ := s
  let c := c ^^^ b; let c := c - lkRot b 14
  let a := a ^^^ c; let a := a - lkRot c 11
  let b := b ^^^ a; let b := b - lkRot a 25
  let c := c ^^^ b; let c := c - lkRot b 16
  let a := a ^^^ c; let a := a - lkRot c 4
  let b := b ^^^ a; let b := b - lkRot a 14
  let c := c ^^^ b; let c := c - lkRot b 24
  ⟨a, b, c⟩

/-- `k[i]` of an array of `uint32_t`. -/
def lkWord (k : List (BitVec 32)) (i : Nat) : Outcome (BitVec 32) :=
  match k[i]? with
  | some v => ok v
  | none => ub

/-- The loop of `my_hashword` and `my_hashword2` — libmy/lookup3.c:191-199, 237-245; `k` is the index of the array where the pointer stands. -/
def lkWordLoop (key : List (BitVec 32)) : Nat → Nat → Nat → Lk → Outcome (Nat × Nat × Lk)
  | 0, _, _, _ => hang
  | fuel + 1, k, len, ⟨a, b, c⟩ =>
    if len > 3 then do
      let a := a + (← lkWord key k)
      let b := b + (← lkWord key (k + 1))
      let c := c + (← lkWord key (k + 2))
      lkWordLoop key fuel (k + 3) (len - 3) (lkMix ⟨a, b, c⟩)
    else ok (k, len, ⟨a, b, c⟩)

/-- `case 1` — libmy/lookup3.c:206-207, 252-253. -/
def lkW1 (key : List (BitVec 32)) (k : Nat) (s : Lk) : Outcome Lk := do
  let ⟨a, b, c⟩ := s
  let a := a + (← lkWord key k)
  ok (lkFinal ⟨a, b, c⟩)

/-- `case 2` — libmy/lookup3.c:205, 251. -/
def lkW2 (key : List (BitVec 32)) (k : Nat) (s : Lk) : Outcome Lk := do
  let ⟨a, b, c⟩ := s
  let b := b + (← lkWord key (k + 1))
  lkW1 key k ⟨a, b, c⟩

/-- `case 3` — libmy/lookup3.c:204, 250. -/
def lkW3 (key : List (BitVec 32)) (k : Nat) (s : Lk) : Outcome Lk := do
  let ⟨a, b, c⟩ := s
  let c := c + (← lkWord key (k + 2))
  lkW2 key k ⟨a, b, c⟩

/-- The whole `switch` — libmy/lookup3.c:202-210, 248-256, followed by `final`; `case 0` returns before `final`. -/
def lkWSwitch (key : List (BitVec 32)) (k : Nat) (len : Nat) (s : Lk) : Outcome Lk :=
  match len with
  | 3 => lkW3 key k s
  | 2 => lkW2 key k s
  | 1 => lkW1 key k s
  | _ => ok s

/-- The registers and the rest of `my_hashword` and `my_hashword2` after the set-up. -/
def lkWords (key : List (BitVec 32)) (len : Nat) (s : Lk) : Outcome Lk := do
  let (k, len, s) ← lkWordLoop key (len + 1) 0 len s
  lkWSwitch key k len s

/-- `my_hashword` — libmy/lookup3.c:180-213. -/
def hashword (key : List (BitVec 32)) (len : Nat) (initval : BitVec 32) : Outcome (BitVec 32) := do
  let c := 0xdeadbeef#32 + (lk32 len <<< 2) + initval
  let s ← lkWords key len ⟨c, c, c⟩
  ok s.2.2

/-- `my_hashword2` — libmy/lookup3.c:224-259: `*pc` and `*pb`. -/
def hashword2 (key : List (BitVec 32)) (len : Nat) (pc pb : BitVec 32) : Outcome (BitVec 32 × BitVec 32) := do
  let c := 0xdeadbeef#32 + lk32 (len <<< 2) + pc
  let s ← lkWords key len ⟨c, c, c + pb⟩
  ok (s.2.2, s.2.1)

/-- The loop of 32-bit reads — libmy/lookup3.c:305-313, 492-500; `p` is the offset of the pointer in the key. -/
def lkLitWordLoop (mem : List UInt8) : Nat → Nat → Nat → Lk → Outcome (Nat × Nat × Lk)
  | 0, _, _, _ => hang
  | fuel + 1, p, len, ⟨a, b, c⟩ =>
    if len > 12 then do
      let a := a + lk32 (← load32 false mem p)
      let b := b + lk32 (← load32 false mem (p + 4))
      let c := c + lk32 (← load32 false mem (p + 8))
      lkLitWordLoop mem fuel (p + 12) (len - 12) (lkMix ⟨a, b, c⟩)
    else ok (p, len, ⟨a, b, c⟩)

/-- `case 1` — libmy/lookup3.c:340, 527. -/
def lkLitMask1 (mem : List UInt8) (p : Nat) (s : Lk) : Outcome Lk := do
  let ⟨a, b, c⟩ := s
  let a := a + (lk32 (← load32 false mem p) &&& 0xff#32)
  ok (lkFinal ⟨a, b, c⟩)

/-- `case 2` — libmy/lookup3.c:339, 526. -/
def lkLitMask2 (mem : List UInt8) (p : Nat) (s : Lk) : Outcome Lk := do
  let ⟨a, b, c⟩ := s
  let a := a + (lk32 (← load32 false mem p) &&& 0xffff#32)
  ok (lkFinal ⟨a, b, c⟩)

/-- `case 3` — libmy/lookup3.c:338, 525. -/
def lkLitMask3 (mem : List UInt8) (p : Nat) (s : Lk) : Outcome Lk := do
  let ⟨a, b, c⟩ := s
  let a := a + (lk32 (← load32 false mem p) &&& 0xffffff#32)
  ok (lkFinal ⟨a, b, c⟩)

/-- `case 4` — libmy/lookup3.c:337, 524. -/
def lkLitMask4 (mem : List UInt8) (p : Nat) (s : Lk) : Outcome Lk := do
  let ⟨a, b, c⟩ := s
  let a := a + lk32 (← load32 false mem p)
  ok (lkFinal ⟨a, b, c⟩)

/-- `case 5` — libmy/lookup3.c:336, 523. -/
def lkLitMask5 (mem : List UInt8) (p : Nat) (s : Lk) : Outcome Lk := do
  let ⟨a, b, c⟩ := s
  let b := b + (lk32 (← load32 false mem (p + 4)) &&& 0xff#32)
  let a := a + lk32 (← load32 false mem p)
  ok (lkFinal ⟨a, b, c⟩)

/-- `case 6` — libmy/lookup3.c:335, 522. -/
def lkLitMask6 (mem : List UInt8) (p : Nat) (s : Lk) : Outcome Lk := do
  let ⟨a, b, c⟩ := s
  let b := b + (lk32 (← load32 false mem (p + 4)) &&& 0xffff#32)
  let a := a + lk32 (← load32 false mem p)
  ok (lkFinal ⟨a, b, c⟩)

/-- `case 7` — libmy/lookup3.c:334, 521. -/
def lkLitMask7 (mem : List UInt8) (p : Nat) (s : Lk) : Outcome Lk := do
  let ⟨a, b, c⟩ := s
  let b := b + (lk32 (← load32 false mem (p + 4)) &&& 0xffffff#32)
  let a := a + lk32 (← load32 false mem p)
  ok (lkFinal ⟨a, b, c⟩)

/-- `case 8` — libmy/lookup3.c:333, 520. -/
def lkLitMask8 (mem : List UInt8) (p : Nat) (s : Lk) : Outcome Lk := do
  let ⟨a, b, c⟩ := s
  let b := b + lk32 (← load32 false mem (p + 4))
  let a := a + lk32 (← load32 false mem p)
  ok (lkFinal ⟨a, b, c⟩)

/-- `case 9` — libmy/lookup3.c:332, 519. -/
def lkLitMask9 (mem : List UInt8) (p : Nat) (s : Lk) : Outcome Lk := do
  let ⟨a, b, c⟩ := s
  let c := c + (lk32 (← load32 false mem (p + 8)) &&& 0xff#32)
  let b := b + lk32 (← load32 false mem (p + 4))
  let a := a + lk32 (← load32 false mem p)
  ok (lkFinal ⟨a, b, c⟩)

/-- `case 10` — libmy/lookup3.c:331, 518. -/
def lkLitMask10 (mem : List UInt8) (p : Nat) (s : Lk) : Outcome Lk := do
  let ⟨a, b, c⟩ := s
  let c := c + (lk32 (← load32 false mem (p + 8)) &&& 0xffff#32)
  let b := b + lk32 (← load32 false mem (p + 4))
  let a := a + lk32 (← load32 false mem p)
  ok (lkFinal ⟨a, b, c⟩)

/-- `case 11` — libmy/lookup3.c:330, 517. -/
def lkLitMask11 (mem : List UInt8) (p : Nat) (s : Lk) : Outcome Lk := do
  let ⟨a, b, c⟩ := s
  let c := c + (lk32 (← load32 false mem (p + 8)) &&& 0xffffff#32)
  let b := b + lk32 (← load32 false mem (p + 4))
  let a := a + lk32 (← load32 false mem p)
  ok (lkFinal ⟨a, b, c⟩)

/-- `case 12` — libmy/lookup3.c:329, 516. -/
def lkLitMask12 (mem : List UInt8) (p : Nat) (s : Lk) : Outcome Lk := do
  let ⟨a, b, c⟩ := s
  let c := c + lk32 (← load32 false mem (p + 8))
  let b := b + lk32 (← load32 false mem (p + 4))
  let a := a + lk32 (← load32 false mem p)
  ok (lkFinal ⟨a, b, c⟩)

/-- The whole `switch` — libmy/lookup3.c:327-342, 514-529, followed by `final`; `case 0` returns before `final`. -/
def lkLitMaskSwitch (mem : List UInt8) (p : Nat) (len : Nat) (s : Lk) : Outcome Lk :=
  match len with
  | 12 => lkLitMask12 mem p s
  | 11 => lkLitMask11 mem p s
  | 10 => lkLitMask10 mem p s
  | 9 => lkLitMask9 mem p s
  | 8 => lkLitMask8 mem p s
  | 7 => lkLitMask7 mem p s
  | 6 => lkLitMask6 mem p s
  | 5 => lkLitMask5 mem p s
  | 4 => lkLitMask4 mem p s
  | 3 => lkLitMask3 mem p s
  | 2 => lkLitMask2 mem p s
  | 1 => lkLitMask1 mem p s
  | _ => ok s

/-- `case 1` — libmy/lookup3.c:360, 547. -/
def lkLitVal1 (mem : List UInt8) (p : Nat) (s : Lk) : Outcome Lk := do
  let ⟨a, b, c⟩ := s
  let a := a + lk32 (← rd mem p).toNat
  ok (lkFinal ⟨a, b, c⟩)

/-- `case 2` — libmy/lookup3.c:359, 546. -/
def lkLitVal2 (mem : List UInt8) (p : Nat) (s : Lk) : Outcome Lk := do
  let ⟨a, b, c⟩ := s
  let a := a + (lk32 (← rd mem (p + 1)).toNat <<< 8)
  lkLitVal1 mem p ⟨a, b, c⟩

/-- `case 3` — libmy/lookup3.c:358, 545. -/
def lkLitVal3 (mem : List UInt8) (p : Nat) (s : Lk) : Outcome Lk := do
  let ⟨a, b, c⟩ := s
  let a := a + (lk32 (← rd mem (p + 2)).toNat <<< 16)
  lkLitVal2 mem p ⟨a, b, c⟩

/-- `case 4` — libmy/lookup3.c:357, 544. -/
def lkLitVal4 (mem : List UInt8) (p : Nat) (s : Lk) : Outcome Lk := do
  let ⟨a, b, c⟩ := s
  let a := a + lk32 (← load32 false mem p)
  ok (lkFinal ⟨a, b, c⟩)

/-- `case 5` — libmy/lookup3.c:356, 543. -/
def lkLitVal5 (mem : List UInt8) (p : Nat) (s : Lk) : Outcome Lk := do
  let ⟨a, b, c⟩ := s
  let b := b + lk32 (← rd mem (p + 4)).toNat
  lkLitVal4 mem p ⟨a, b, c⟩

/-- `case 6` — libmy/lookup3.c:355, 542. -/
def lkLitVal6 (mem : List UInt8) (p : Nat) (s : Lk) : Outcome Lk := do
  let ⟨a, b, c⟩ := s
  let b := b + (lk32 (← rd mem (p + 5)).toNat <<< 8)
  lkLitVal5 mem p ⟨a, b, c⟩

/-- `case 7` — libmy/lookup3.c:354, 541. -/
def lkLitVal7 (mem : List UInt8) (p : Nat) (s : Lk) : Outcome Lk := do
  let ⟨a, b, c⟩ := s
  let b := b + (lk32 (← rd mem (p + 6)).toNat <<< 16)
  lkLitVal6 mem p ⟨a, b, c⟩

/-- `case 8` — libmy/lookup3.c:353, 540. -/
def lkLitVal8 (mem : List UInt8) (p : Nat) (s : Lk) : Outcome Lk := do
  let ⟨a, b, c⟩ := s
  let b := b + lk32 (← load32 false mem (p + 4))
  let a := a + lk32 (← load32 false mem p)
  ok (lkFinal ⟨a, b, c⟩)

/-- `case 9` — libmy/lookup3.c:352, 539. -/
def lkLitVal9 (mem : List UInt8) (p : Nat) (s : Lk) : Outcome Lk := do
  let ⟨a, b, c⟩ := s
  let c := c + lk32 (← rd mem (p + 8)).toNat
  lkLitVal8 mem p ⟨a, b, c⟩

/-- `case 10` — libmy/lookup3.c:351, 538. -/
def lkLitVal10 (mem : List UInt8) (p : Nat) (s : Lk) : Outcome Lk := do
  let ⟨a, b, c⟩ := s
  let c := c + (lk32 (← rd mem (p + 9)).toNat <<< 8)
  lkLitVal9 mem p ⟨a, b, c⟩

/-- `case 11` — libmy/lookup3.c:350, 537. -/
def lkLitVal11 (mem : List UInt8) (p : Nat) (s : Lk) : Outcome Lk := do
  let ⟨a, b, c⟩ := s
  let c := c + (lk32 (← rd mem (p + 10)).toNat <<< 16)
  lkLitVal10 mem p ⟨a, b, c⟩

/-- `case 12` — libmy/lookup3.c:349, 536. -/
def lkLitVal12 (mem : List UInt8) (p : Nat) (s : Lk) : Outcome Lk := do
  let ⟨a, b, c⟩ := s
  let c := c + lk32 (← load32 false mem (p + 8))
  let b := b + lk32 (← load32 false mem (p + 4))
  let a := a + lk32 (← load32 false mem p)
  ok (lkFinal ⟨a, b, c⟩)

/-- The whole `switch` — libmy/lookup3.c:347-362, 534-549, followed by `final`; `case 0` returns before `final`. -/
def lkLitValSwitch (mem : List UInt8) (p : Nat) (len : Nat) (s : Lk) : Outcome Lk :=
  match len with
  | 12 => lkLitVal12 mem p s
  | 11 => lkLitVal11 mem p s
  | 10 => lkLitVal10 mem p s
  | 9 => lkLitVal9 mem p s
  | 8 => lkLitVal8 mem p s
  | 7 => lkLitVal7 mem p s
  | 6 => lkLitVal6 mem p s
  | 5 => lkLitVal5 mem p s
  | 4 => lkLitVal4 mem p s
  | 3 => lkLitVal3 mem p s
  | 2 => lkLitVal2 mem p s
  | 1 => lkLitVal1 mem p s
  | _ => ok s

/-- The loop of 16-bit reads — libmy/lookup3.c:371-379, 558-566; `p` is the offset of the pointer in the key. -/
def lkHalfLoop (mem : List UInt8) : Nat → Nat → Nat → Lk → Outcome (Nat × Nat × Lk)
  | 0, _, _, _ => hang
  | fuel + 1, p, len, ⟨a, b, c⟩ =>
    if len > 12 then do
      let a := a + (lk32 (← load16 mem p) + (lk32 (← load16 mem (p + 2)) <<< 16))
      let b := b + (lk32 (← load16 mem (p + 4)) + (lk32 (← load16 mem (p + 6)) <<< 16))
      let c := c + (lk32 (← load16 mem (p + 8)) + (lk32 (← load16 mem (p + 10)) <<< 16))
      lkHalfLoop mem fuel (p + 12) (len - 12) (lkMix ⟨a, b, c⟩)
    else ok (p, len, ⟨a, b, c⟩)

/-- `case 1` — libmy/lookup3.c:408-409, 595-596. -/
def lkHalf1 (mem : List UInt8) (p : Nat) (s : Lk) : Outcome Lk := do
  let ⟨a, b, c⟩ := s
  let a := a + lk32 (← rd mem p).toNat
  ok (lkFinal ⟨a, b, c⟩)

/-- `case 2` — libmy/lookup3.c:406-407, 593-594. -/
def lkHalf2 (mem : List UInt8) (p : Nat) (s : Lk) : Outcome Lk := do
  let ⟨a, b, c⟩ := s
  let a := a + lk32 (← load16 mem p)
  ok (lkFinal ⟨a, b, c⟩)

/-- `case 3` — libmy/lookup3.c:405, 592. -/
def lkHalf3 (mem : List UInt8) (p : Nat) (s : Lk) : Outcome Lk := do
  let ⟨a, b, c⟩ := s
  let a := a + (lk32 (← rd mem (p + 2)).toNat <<< 16)
  lkHalf2 mem p ⟨a, b, c⟩

/-- `case 4` — libmy/lookup3.c:403-404, 590-591. -/
def lkHalf4 (mem : List UInt8) (p : Nat) (s : Lk) : Outcome Lk := do
  let ⟨a, b, c⟩ := s
  let a := a + (lk32 (← load16 mem p) + (lk32 (← load16 mem (p + 2)) <<< 16))
  ok (lkFinal ⟨a, b, c⟩)

/-- `case 5` — libmy/lookup3.c:402, 589. -/
def lkHalf5 (mem : List UInt8) (p : Nat) (s : Lk) : Outcome Lk := do
  let ⟨a, b, c⟩ := s
  let b := b + lk32 (← rd mem (p + 4)).toNat
  lkHalf4 mem p ⟨a, b, c⟩

/-- `case 6` — libmy/lookup3.c:399-401, 586-588. -/
def lkHalf6 (mem : List UInt8) (p : Nat) (s : Lk) : Outcome Lk := do
  let ⟨a, b, c⟩ := s
  let b := b + lk32 (← load16 mem (p + 4))
  let a := a + (lk32 (← load16 mem p) + (lk32 (← load16 mem (p + 2)) <<< 16))
  ok (lkFinal ⟨a, b, c⟩)

/-- `case 7` — libmy/lookup3.c:398, 585. -/
def lkHalf7 (mem : List UInt8) (p : Nat) (s : Lk) : Outcome Lk := do
  let ⟨a, b, c⟩ := s
  let b := b + (lk32 (← rd mem (p + 6)).toNat <<< 16)
  lkHalf6 mem p ⟨a, b, c⟩

/-- `case 8` — libmy/lookup3.c:395-397, 582-584. -/
def lkHalf8 (mem : List UInt8) (p : Nat) (s : Lk) : Outcome Lk := do
  let ⟨a, b, c⟩ := s
  let b := b + (lk32 (← load16 mem (p + 4)) + (lk32 (← load16 mem (p + 6)) <<< 16))
  let a := a + (lk32 (← load16 mem p) + (lk32 (← load16 mem (p + 2)) <<< 16))
  ok (lkFinal ⟨a, b, c⟩)

/-- `case 9` — libmy/lookup3.c:394, 581. -/
def lkHalf9 (mem : List UInt8) (p : Nat) (s : Lk) : Outcome Lk := do
  let ⟨a, b, c⟩ := s
  let c := c + lk32 (← rd mem (p + 8)).toNat
  lkHalf8 mem p ⟨a, b, c⟩

/-- `case 10` — libmy/lookup3.c:390-393, 577-580. -/
def lkHalf10 (mem : List UInt8) (p : Nat) (s : Lk) : Outcome Lk := do
  let ⟨a, b, c⟩ := s
  let c := c + lk32 (← load16 mem (p + 8))
  let b := b + (lk32 (← load16 mem (p + 4)) + (lk32 (← load16 mem (p + 6)) <<< 16))
  let a := a + (lk32 (← load16 mem p) + (lk32 (← load16 mem (p + 2)) <<< 16))
  ok (lkFinal ⟨a, b, c⟩)

/-- `case 11` — libmy/lookup3.c:389, 576. -/
def lkHalf11 (mem : List UInt8) (p : Nat) (s : Lk) : Outcome Lk := do
  let ⟨a, b, c⟩ := s
  let c := c + (lk32 (← rd mem (p + 10)).toNat <<< 16)
  lkHalf10 mem p ⟨a, b, c⟩

/-- `case 12` — libmy/lookup3.c:385-388, 572-575. -/
def lkHalf12 (mem : List UInt8) (p : Nat) (s : Lk) : Outcome Lk := do
  let ⟨a, b, c⟩ := s
  let c := c + (lk32 (← load16 mem (p + 8)) + (lk32 (← load16 mem (p + 10)) <<< 16))
  let b := b + (lk32 (← load16 mem (p + 4)) + (lk32 (← load16 mem (p + 6)) <<< 16))
  let a := a + (lk32 (← load16 mem p) + (lk32 (← load16 mem (p + 2)) <<< 16))
  ok (lkFinal ⟨a, b, c⟩)

/-- The whole `switch` — libmy/lookup3.c:383-411, 570-598, followed by `final`; `case 0` returns before `final`. -/
def lkHalfSwitch (mem : List UInt8) (p : Nat) (len : Nat) (s : Lk) : Outcome Lk :=
  match len with
  | 12 => lkHalf12 mem p s
  | 11 => lkHalf11 mem p s
  | 10 => lkHalf10 mem p s
  | 9 => lkHalf9 mem p s
  | 8 => lkHalf8 mem p s
  | 7 => lkHalf7 mem p s
  | 6 => lkHalf6 mem p s
  | 5 => lkHalf5 mem p s
  | 4 => lkHalf4 mem p s
  | 3 => lkHalf3 mem p s
  | 2 => lkHalf2 mem p s
  | 1 => lkHalf1 mem p s
  | _ => ok s

/-- The loop of single octets — libmy/lookup3.c:417-434, 604-621; `p` is the offset of the pointer in the key. -/
def lkLitByteLoop (mem : List UInt8) : Nat → Nat → Nat → Lk → Outcome (Nat × Nat × Lk)
  | 0, _, _, _ => hang
  | fuel + 1, p, len, ⟨a, b, c⟩ =>
    if len > 12 then do
      let a := a + lk32 (← rd mem p).toNat
      let a := a + (lk32 (← rd mem (p + 1)).toNat <<< 8)
      let a := a + (lk32 (← rd mem (p + 2)).toNat <<< 16)
      let a := a + (lk32 (← rd mem (p + 3)).toNat <<< 24)
      let b := b + lk32 (← rd mem (p + 4)).toNat
      let b := b + (lk32 (← rd mem (p + 5)).toNat <<< 8)
      let b := b + (lk32 (← rd mem (p + 6)).toNat <<< 16)
      let b := b + (lk32 (← rd mem (p + 7)).toNat <<< 24)
      let c := c + lk32 (← rd mem (p + 8)).toNat
      let c := c + (lk32 (← rd mem (p + 9)).toNat <<< 8)
      let c := c + (lk32 (← rd mem (p + 10)).toNat <<< 16)
      let c := c + (lk32 (← rd mem (p + 11)).toNat <<< 24)
      lkLitByteLoop mem fuel (p + 12) (len - 12) (lkMix ⟨a, b, c⟩)
    else ok (p, len, ⟨a, b, c⟩)

/-- `case 1` — libmy/lookup3.c:450, 637. -/
def lkLitByte1 (mem : List UInt8) (p : Nat) (s : Lk) : Outcome Lk := do
  let ⟨a, b, c⟩ := s
  let a := a + lk32 (← rd mem p).toNat
  ok (lkFinal ⟨a, b, c⟩)

/-- `case 2` — libmy/lookup3.c:449, 636. -/
def lkLitByte2 (mem : List UInt8) (p : Nat) (s : Lk) : Outcome Lk := do
  let ⟨a, b, c⟩ := s
  let a := a + (lk32 (← rd mem (p + 1)).toNat <<< 8)
  lkLitByte1 mem p ⟨a, b, c⟩

/-- `case 3` — libmy/lookup3.c:448, 635. -/
def lkLitByte3 (mem : List UInt8) (p : Nat) (s : Lk) : Outcome Lk := do
  let ⟨a, b, c⟩ := s
  let a := a + (lk32 (← rd mem (p + 2)).toNat <<< 16)
  lkLitByte2 mem p ⟨a, b, c⟩

/-- `case 4` — libmy/lookup3.c:447, 634. -/
def lkLitByte4 (mem : List UInt8) (p : Nat) (s : Lk) : Outcome Lk := do
  let ⟨a, b, c⟩ := s
  let a := a + (lk32 (← rd mem (p + 3)).toNat <<< 24)
  lkLitByte3 mem p ⟨a, b, c⟩

/-- `case 5` — libmy/lookup3.c:446, 633. -/
def lkLitByte5 (mem : List UInt8) (p : Nat) (s : Lk) : Outcome Lk := do
  let ⟨a, b, c⟩ := s
  let b := b + lk32 (← rd mem (p + 4)).toNat
  lkLitByte4 mem p ⟨a, b, c⟩

/-- `case 6` — libmy/lookup3.c:445, 632. -/
def lkLitByte6 (mem : List UInt8) (p : Nat) (s : Lk) : Outcome Lk := do
  let ⟨a, b, c⟩ := s
  let b := b + (lk32 (← rd mem (p + 5)).toNat <<< 8)
  lkLitByte5 mem p ⟨a, b, c⟩

/-- `case 7` — libmy/lookup3.c:444, 631. -/
def lkLitByte7 (mem : List UInt8) (p : Nat) (s : Lk) : Outcome Lk := do
  let ⟨a, b, c⟩ := s
  let b := b + (lk32 (← rd mem (p + 6)).toNat <<< 16)
  lkLitByte6 mem p ⟨a, b, c⟩

/-- `case 8` — libmy/lookup3.c:443, 630. -/
def lkLitByte8 (mem : List UInt8) (p : Nat) (s : Lk) : Outcome Lk := do
  let ⟨a, b, c⟩ := s
  let b := b + (lk32 (← rd mem (p + 7)).toNat <<< 24)
  lkLitByte7 mem p ⟨a, b, c⟩

/-- `case 9` — libmy/lookup3.c:442, 629. -/
def lkLitByte9 (mem : List UInt8) (p : Nat) (s : Lk) : Outcome Lk := do
  let ⟨a, b, c⟩ := s
  let c := c + lk32 (← rd mem (p + 8)).toNat
  lkLitByte8 mem p ⟨a, b, c⟩

/-- `case 10` — libmy/lookup3.c:441, 628. -/
def lkLitByte10 (mem : List UInt8) (p : Nat) (s : Lk) : Outcome Lk := do
  let ⟨a, b, c⟩ := s
  let c := c + (lk32 (← rd mem (p + 9)).toNat <<< 8)
  lkLitByte9 mem p ⟨a, b, c⟩

/-- `case 11` — libmy/lookup3.c:440, 627. -/
def lkLitByte11 (mem : List UInt8) (p : Nat) (s : Lk) : Outcome Lk := do
  let ⟨a, b, c⟩ := s
  let c := c + (lk32 (← rd mem (p + 10)).toNat <<< 16)
  lkLitByte10 mem p ⟨a, b, c⟩

/-- `case 12` — libmy/lookup3.c:439, 626. -/
def lkLitByte12 (mem : List UInt8) (p : Nat) (s : Lk) : Outcome Lk := do
  let ⟨a, b, c⟩ := s
  let c := c + (lk32 (← rd mem (p + 11)).toNat <<< 24)
  lkLitByte11 mem p ⟨a, b, c⟩

/-- The whole `switch` — libmy/lookup3.c:437-452, 624-639, followed by `final`; `case 0` returns before `final`. -/
def lkLitByteSwitch (mem : List UInt8) (p : Nat) (len : Nat) (s : Lk) : Outcome Lk :=
  match len with
  | 12 => lkLitByte12 mem p s
  | 11 => lkLitByte11 mem p s
  | 10 => lkLitByte10 mem p s
  | 9 => lkLitByte9 mem p s
  | 8 => lkLitByte8 mem p s
  | 7 => lkLitByte7 mem p s
  | 6 => lkLitByte6 mem p s
  | 5 => lkLitByte5 mem p s
  | 4 => lkLitByte4 mem p s
  | 3 => lkLitByte3 mem p s
  | 2 => lkLitByte2 mem p s
  | 1 => lkLitByte1 mem p s
  | _ => ok s

/-- The loop of 32-bit reads — libmy/lookup3.c:671-679; `p` is the offset of the pointer in the key. -/
def lkBigWordLoop (mem : List UInt8) : Nat → Nat → Nat → Lk → Outcome (Nat × Nat × Lk)
  | 0, _, _, _ => hang
  | fuel + 1, p, len, ⟨a, b, c⟩ =>
    if len > 12 then do
      let a := a + lk32 (← load32 true mem p)
      let b := b + lk32 (← load32 true mem (p + 4))
      let c := c + lk32 (← load32 true mem (p + 8))
      lkBigWordLoop mem fuel (p + 12) (len - 12) (lkMix ⟨a, b, c⟩)
    else ok (p, len, ⟨a, b, c⟩)

/-- `case 1` — libmy/lookup3.c:706. -/
def lkBigMask1 (mem : List UInt8) (p : Nat) (s : Lk) : Outcome Lk := do
  let ⟨a, b, c⟩ := s
  let a := a + (lk32 (← load32 true mem p) &&& 0xff000000#32)
  ok (lkFinal ⟨a, b, c⟩)

/-- `case 2` — libmy/lookup3.c:705. -/
def lkBigMask2 (mem : List UInt8) (p : Nat) (s : Lk) : Outcome Lk := do
  let ⟨a, b, c⟩ := s
  let a := a + (lk32 (← load32 true mem p) &&& 0xffff0000#32)
  ok (lkFinal ⟨a, b, c⟩)

/-- `case 3` — libmy/lookup3.c:704. -/
def lkBigMask3 (mem : List UInt8) (p : Nat) (s : Lk) : Outcome Lk := do
  let ⟨a, b, c⟩ := s
  let a := a + (lk32 (← load32 true mem p) &&& 0xffffff00#32)
  ok (lkFinal ⟨a, b, c⟩)

/-- `case 4` — libmy/lookup3.c:703. -/
def lkBigMask4 (mem : List UInt8) (p : Nat) (s : Lk) : Outcome Lk := do
  let ⟨a, b, c⟩ := s
  let a := a + lk32 (← load32 true mem p)
  ok (lkFinal ⟨a, b, c⟩)

/-- `case 5` — libmy/lookup3.c:702. -/
def lkBigMask5 (mem : List UInt8) (p : Nat) (s : Lk) : Outcome Lk := do
  let ⟨a, b, c⟩ := s
  let b := b + (lk32 (← load32 true mem (p + 4)) &&& 0xff000000#32)
  let a := a + lk32 (← load32 true mem p)
  ok (lkFinal ⟨a, b, c⟩)

/-- `case 6` — libmy/lookup3.c:701. -/
def lkBigMask6 (mem : List UInt8) (p : Nat) (s : Lk) : Outcome Lk := do
  let ⟨a, b, c⟩ := s
  let b := b + (lk32 (← load32 true mem (p + 4)) &&& 0xffff0000#32)
  let a := a + lk32 (← load32 true mem p)
  ok (lkFinal ⟨a, b, c⟩)

/-- `case 7` — libmy/lookup3.c:700. -/
def lkBigMask7 (mem : List UInt8) (p : Nat) (s : Lk) : Outcome Lk := do
  let ⟨a, b, c⟩ := s
  let b := b + (lk32 (← load32 true mem (p + 4)) &&& 0xffffff00#32)
  let a := a + lk32 (← load32 true mem p)
  ok (lkFinal ⟨a, b, c⟩)

/-- `case 8` — libmy/lookup3.c:699. -/
def lkBigMask8 (mem : List UInt8) (p : Nat) (s : Lk) : Outcome Lk := do
  let ⟨a, b, c⟩ := s
  let b := b + lk32 (← load32 true mem (p + 4))
  let a := a + lk32 (← load32 true mem p)
  ok (lkFinal ⟨a, b, c⟩)

/-- `case 9` — libmy/lookup3.c:698. -/
def lkBigMask9 (mem : List UInt8) (p : Nat) (s : Lk) : Outcome Lk := do
  let ⟨a, b, c⟩ := s
  let c := c + (lk32 (← load32 true mem (p + 8)) &&& 0xff000000#32)
  let b := b + lk32 (← load32 true mem (p + 4))
  let a := a + lk32 (← load32 true mem p)
  ok (lkFinal ⟨a, b, c⟩)

/-- `case 10` — libmy/lookup3.c:697. -/
def lkBigMask10 (mem : List UInt8) (p : Nat) (s : Lk) : Outcome Lk := do
  let ⟨a, b, c⟩ := s
  let c := c + (lk32 (← load32 true mem (p + 8)) &&& 0xffff0000#32)
  let b := b + lk32 (← load32 true mem (p + 4))
  let a := a + lk32 (← load32 true mem p)
  ok (lkFinal ⟨a, b, c⟩)

/-- `case 11` — libmy/lookup3.c:696. -/
def lkBigMask11 (mem : List UInt8) (p : Nat) (s : Lk) : Outcome Lk := do
  let ⟨a, b, c⟩ := s
  let c := c + (lk32 (← load32 true mem (p + 8)) &&& 0xffffff00#32)
  let b := b + lk32 (← load32 true mem (p + 4))
  let a := a + lk32 (← load32 true mem p)
  ok (lkFinal ⟨a, b, c⟩)

/-- `case 12` — libmy/lookup3.c:695. -/
def lkBigMask12 (mem : List UInt8) (p : Nat) (s : Lk) : Outcome Lk := do
  let ⟨a, b, c⟩ := s
  let c := c + lk32 (← load32 true mem (p + 8))
  let b := b + lk32 (← load32 true mem (p + 4))
  let a := a + lk32 (← load32 true mem p)
  ok (lkFinal ⟨a, b, c⟩)

/-- The whole `switch` — libmy/lookup3.c:693-708, followed by `final`; `case 0` returns before `final`. -/
def lkBigMaskSwitch (mem : List UInt8) (p : Nat) (len : Nat) (s : Lk) : Outcome Lk :=
  match len with
  | 12 => lkBigMask12 mem p s
  | 11 => lkBigMask11 mem p s
  | 10 => lkBigMask10 mem p s
  | 9 => lkBigMask9 mem p s
  | 8 => lkBigMask8 mem p s
  | 7 => lkBigMask7 mem p s
  | 6 => lkBigMask6 mem p s
  | 5 => lkBigMask5 mem p s
  | 4 => lkBigMask4 mem p s
  | 3 => lkBigMask3 mem p s
  | 2 => lkBigMask2 mem p s
  | 1 => lkBigMask1 mem p s
  | _ => ok s

/-- `case 1` — libmy/lookup3.c:726. -/
def lkBigVal1 (mem : List UInt8) (p : Nat) (s : Lk) : Outcome Lk := do
  let ⟨a, b, c⟩ := s
  let a := a + (lk32 (← rd mem p).toNat <<< 24)
  ok (lkFinal ⟨a, b, c⟩)

/-- `case 2` — libmy/lookup3.c:725. -/
def lkBigVal2 (mem : List UInt8) (p : Nat) (s : Lk) : Outcome Lk := do
  let ⟨a, b, c⟩ := s
  let a := a + (lk32 (← rd mem (p + 1)).toNat <<< 16)
  lkBigVal1 mem p ⟨a, b, c⟩

/-- `case 3` — libmy/lookup3.c:724. -/
def lkBigVal3 (mem : List UInt8) (p : Nat) (s : Lk) : Outcome Lk := do
  let ⟨a, b, c⟩ := s
  let a := a + (lk32 (← rd mem (p + 2)).toNat <<< 8)
  lkBigVal2 mem p ⟨a, b, c⟩

/-- `case 4` — libmy/lookup3.c:723. -/
def lkBigVal4 (mem : List UInt8) (p : Nat) (s : Lk) : Outcome Lk := do
  let ⟨a, b, c⟩ := s
  let a := a + lk32 (← load32 true mem p)
  ok (lkFinal ⟨a, b, c⟩)

/-- `case 5` — libmy/lookup3.c:722. -/
def lkBigVal5 (mem : List UInt8) (p : Nat) (s : Lk) : Outcome Lk := do
  let ⟨a, b, c⟩ := s
  let b := b + (lk32 (← rd mem (p + 4)).toNat <<< 24)
  lkBigVal4 mem p ⟨a, b, c⟩

/-- `case 6` — libmy/lookup3.c:721. -/
def lkBigVal6 (mem : List UInt8) (p : Nat) (s : Lk) : Outcome Lk := do
  let ⟨a, b, c⟩ := s
  let b := b + (lk32 (← rd mem (p + 5)).toNat <<< 16)
  lkBigVal5 mem p ⟨a, b, c⟩

/-- `case 7` — libmy/lookup3.c:720. -/
def lkBigVal7 (mem : List UInt8) (p : Nat) (s : Lk) : Outcome Lk := do
  let ⟨a, b, c⟩ := s
  let b := b + (lk32 (← rd mem (p + 6)).toNat <<< 8)
  lkBigVal6 mem p ⟨a, b, c⟩

/-- `case 8` — libmy/lookup3.c:719. -/
def lkBigVal8 (mem : List UInt8) (p : Nat) (s : Lk) : Outcome Lk := do
  let ⟨a, b, c⟩ := s
  let b := b + lk32 (← load32 true mem (p + 4))
  let a := a + lk32 (← load32 true mem p)
  ok (lkFinal ⟨a, b, c⟩)

/-- `case 9` — libmy/lookup3.c:718. -/
def lkBigVal9 (mem : List UInt8) (p : Nat) (s : Lk) : Outcome Lk := do
  let ⟨a, b, c⟩ := s
  let c := c + (lk32 (← rd mem (p + 8)).toNat <<< 24)
  lkBigVal8 mem p ⟨a, b, c⟩

/-- `case 10` — libmy/lookup3.c:717. -/
def lkBigVal10 (mem : List UInt8) (p : Nat) (s : Lk) : Outcome Lk := do
  let ⟨a, b, c⟩ := s
  let c := c + (lk32 (← rd mem (p + 9)).toNat <<< 16)
  lkBigVal9 mem p ⟨a, b, c⟩

/-- `case 11` — libmy/lookup3.c:716. -/
def lkBigVal11 (mem : List UInt8) (p : Nat) (s : Lk) : Outcome Lk := do
  let ⟨a, b, c⟩ := s
  let c := c + (lk32 (← rd mem (p + 10)).toNat <<< 8)
  lkBigVal10 mem p ⟨a, b, c⟩

/-- `case 12` — libmy/lookup3.c:715. -/
def lkBigVal12 (mem : List UInt8) (p : Nat) (s : Lk) : Outcome Lk := do
  let ⟨a, b, c⟩ := s
  let c := c + lk32 (← load32 true mem (p + 8))
  let b := b + lk32 (← load32 true mem (p + 4))
  let a := a + lk32 (← load32 true mem p)
  ok (lkFinal ⟨a, b, c⟩)

/-- The whole `switch` — libmy/lookup3.c:713-728, followed by `final`; `case 0` returns before `final`. -/
def lkBigValSwitch (mem : List UInt8) (p : Nat) (len : Nat) (s : Lk) : Outcome Lk :=
  match len with
  | 12 => lkBigVal12 mem p s
  | 11 => lkBigVal11 mem p s
  | 10 => lkBigVal10 mem p s
  | 9 => lkBigVal9 mem p s
  | 8 => lkBigVal8 mem p s
  | 7 => lkBigVal7 mem p s
  | 6 => lkBigVal6 mem p s
  | 5 => lkBigVal5 mem p s
  | 4 => lkBigVal4 mem p s
  | 3 => lkBigVal3 mem p s
  | 2 => lkBigVal2 mem p s
  | 1 => lkBigVal1 mem p s
  | _ => ok s

/-- The loop of single octets — libmy/lookup3.c:736-753; `p` is the offset of the pointer in the key. -/
def lkBigByteLoop (mem : List UInt8) : Nat → Nat → Nat → Lk → Outcome (Nat × Nat × Lk)
  | 0, _, _, _ => hang
  | fuel + 1, p, len, ⟨a, b, c⟩ =>
    if len > 12 then do
      let a := a + (lk32 (← rd mem p).toNat <<< 24)
      let a := a + (lk32 (← rd mem (p + 1)).toNat <<< 16)
      let a := a + (lk32 (← rd mem (p + 2)).toNat <<< 8)
      let a := a + lk32 (← rd mem (p + 3)).toNat
      let b := b + (lk32 (← rd mem (p + 4)).toNat <<< 24)
      let b := b + (lk32 (← rd mem (p + 5)).toNat <<< 16)
      let b := b + (lk32 (← rd mem (p + 6)).toNat <<< 8)
      let b := b + lk32 (← rd mem (p + 7)).toNat
      let c := c + (lk32 (← rd mem (p + 8)).toNat <<< 24)
      let c := c + (lk32 (← rd mem (p + 9)).toNat <<< 16)
      let c := c + (lk32 (← rd mem (p + 10)).toNat <<< 8)
      let c := c + lk32 (← rd mem (p + 11)).toNat
      lkBigByteLoop mem fuel (p + 12) (len - 12) (lkMix ⟨a, b, c⟩)
    else ok (p, len, ⟨a, b, c⟩)

/-- `case 1` — libmy/lookup3.c:769. -/
def lkBigByte1 (mem : List UInt8) (p : Nat) (s : Lk) : Outcome Lk := do
  let ⟨a, b, c⟩ := s
  let a := a + (lk32 (← rd mem p).toNat <<< 24)
  ok (lkFinal ⟨a, b, c⟩)

/-- `case 2` — libmy/lookup3.c:768. -/
def lkBigByte2 (mem : List UInt8) (p : Nat) (s : Lk) : Outcome Lk := do
  let ⟨a, b, c⟩ := s
  let a := a + (lk32 (← rd mem (p + 1)).toNat <<< 16)
  lkBigByte1 mem p ⟨a, b, c⟩

/-- `case 3` — libmy/lookup3.c:767. -/
def lkBigByte3 (mem : List UInt8) (p : Nat) (s : Lk) : Outcome Lk := do
  let ⟨a, b, c⟩ := s
  let a := a + (lk32 (← rd mem (p + 2)).toNat <<< 8)
  lkBigByte2 mem p ⟨a, b, c⟩

/-- `case 4` — libmy/lookup3.c:766. -/
def lkBigByte4 (mem : List UInt8) (p : Nat) (s : Lk) : Outcome Lk := do
  let ⟨a, b, c⟩ := s
  let a := a + lk32 (← rd mem (p + 3)).toNat
  lkBigByte3 mem p ⟨a, b, c⟩

/-- `case 5` — libmy/lookup3.c:765. -/
def lkBigByte5 (mem : List UInt8) (p : Nat) (s : Lk) : Outcome Lk := do
  let ⟨a, b, c⟩ := s
  let b := b + (lk32 (← rd mem (p + 4)).toNat <<< 24)
  lkBigByte4 mem p ⟨a, b, c⟩

/-- `case 6` — libmy/lookup3.c:764. -/
def lkBigByte6 (mem : List UInt8) (p : Nat) (s : Lk) : Outcome Lk := do
  let ⟨a, b, c⟩ := s
  let b := b + (lk32 (← rd mem (p + 5)).toNat <<< 16)
  lkBigByte5 mem p ⟨a, b, c⟩

/-- `case 7` — libmy/lookup3.c:763. -/
def lkBigByte7 (mem : List UInt8) (p : Nat) (s : Lk) : Outcome Lk := do
  let ⟨a, b, c⟩ := s
  let b := b + (lk32 (← rd mem (p + 6)).toNat <<< 8)
  lkBigByte6 mem p ⟨a, b, c⟩

/-- `case 8` — libmy/lookup3.c:762. -/
def lkBigByte8 (mem : List UInt8) (p : Nat) (s : Lk) : Outcome Lk := do
  let ⟨a, b, c⟩ := s
  let b := b + lk32 (← rd mem (p + 7)).toNat
  lkBigByte7 mem p ⟨a, b, c⟩

/-- `case 9` — libmy/lookup3.c:761. -/
def lkBigByte9 (mem : List UInt8) (p : Nat) (s : Lk) : Outcome Lk := do
  let ⟨a, b, c⟩ := s
  let c := c + (lk32 (← rd mem (p + 8)).toNat <<< 24)
  lkBigByte8 mem p ⟨a, b, c⟩

/-- `case 10` — libmy/lookup3.c:760. -/
def lkBigByte10 (mem : List UInt8) (p : Nat) (s : Lk) : Outcome Lk := do
  let ⟨a, b, c⟩ := s
  let c := c + (lk32 (← rd mem (p + 9)).toNat <<< 16)
  lkBigByte9 mem p ⟨a, b, c⟩

/-- `case 11` — libmy/lookup3.c:759. -/
def lkBigByte11 (mem : List UInt8) (p : Nat) (s : Lk) : Outcome Lk := do
  let ⟨a, b, c⟩ := s
  let c := c + (lk32 (← rd mem (p + 10)).toNat <<< 8)
  lkBigByte10 mem p ⟨a, b, c⟩

/-- `case 12` — libmy/lookup3.c:758. -/
def lkBigByte12 (mem : List UInt8) (p : Nat) (s : Lk) : Outcome Lk := do
  let ⟨a, b, c⟩ := s
  let c := c + lk32 (← rd mem (p + 11)).toNat
  lkBigByte11 mem p ⟨a, b, c⟩

/-- The whole `switch` — libmy/lookup3.c:756-771, followed by `final`; `case 0` returns before `final`. -/
def lkBigByteSwitch (mem : List UInt8) (p : Nat) (len : Nat) (s : Lk) : Outcome Lk :=
  match len with
  | 12 => lkBigByte12 mem p s
  | 11 => lkBigByte11 mem p s
  | 10 => lkBigByte10 mem p s
  | 9 => lkBigByte9 mem p s
  | 8 => lkBigByte8 mem p s
  | 7 => lkBigByte7 mem p s
  | 6 => lkBigByte6 mem p s
  | 5 => lkBigByte5 mem p s
  | 4 => lkBigByte4 mem p s
  | 3 => lkBigByte3 mem p s
  | 2 => lkBigByte2 mem p s
  | 1 => lkBigByte1 mem p s
  | _ => ok s

/-- How the file is compiled: `HASH_LITTLE_ENDIAN` and `HASH_BIG_ENDIAN` (libmy/lookup3.c:58-71: both false for an unknown machine, never both
true), and whether `VALGRIND` is defined. -/
structure LkCfg where
  little : Bool
  big : Bool
  valgrind : Bool

/-- The body of `my_hashlittle` (libmy/lookup3.c:297-457) and of `my_hashlittle2` (484-644) after the set-up. -/
def lkLittle (cfg : LkCfg) (base : Nat) (mem : List UInt8) (len : Nat) (s : Lk) : Outcome Lk :=
  if cfg.little ∧ base &&& 3 = 0 then do
    let (p, len, s) ← lkLitWordLoop mem (len + 1) 0 len s
    if cfg.valgrind then lkLitValSwitch mem p len s else lkLitMaskSwitch mem p len s
  else if cfg.little ∧ base &&& 1 = 0 then do
    let (p, len, s) ← lkHalfLoop mem (len + 1) 0 len s
    lkHalfSwitch mem p len s
  else do
    let (p, len, s) ← lkLitByteLoop mem (len + 1) 0 len s
    lkLitByteSwitch mem p len s

/-- `my_hashlittle` — libmy/lookup3.c:289-458. -/
def hashlittle (cfg : LkCfg) (base : Nat) (mem : List UInt8) (len : Nat) (initval : BitVec 32) : Outcome (BitVec 32) := do
  let c := 0xdeadbeef#32 + lk32 len + initval
  let s ← lkLittle cfg base mem len ⟨c, c, c⟩
  ok s.2.2

/-- `my_hashlittle2` — libmy/lookup3.c:471-645: `*pc` and `*pb`. -/
def hashlittle2 (cfg : LkCfg) (base : Nat) (mem : List UInt8) (len : Nat) (pc pb : BitVec 32) : Outcome (BitVec 32 × BitVec 32) := do
  let c := 0xdeadbeef#32 + lk32 len + pc
  let s ← lkLittle cfg base mem len ⟨c, c, c + pb⟩
  ok (s.2.2, s.2.1)

/-- The body of `my_hashbig` after the set-up — libmy/lookup3.c:663-775. -/
def lkBigger (cfg : LkCfg) (base : Nat) (mem : List UInt8) (len : Nat) (s : Lk) : Outcome Lk :=
  if cfg.big ∧ base &&& 3 = 0 then do
    let (p, len, s) ← lkBigWordLoop mem (len + 1) 0 len s
    if cfg.valgrind then lkBigValSwitch mem p len s else lkBigMaskSwitch mem p len s
  else do
    let (p, len, s) ← lkBigByteLoop mem (len + 1) 0 len s
    lkBigByteSwitch mem p len s

/-- `my_hashbig` — libmy/lookup3.c:655-777. -/
def hashbig (cfg : LkCfg) (base : Nat) (mem : List UInt8) (len : Nat) (initval : BitVec 32) : Outcome (BitVec 32) := do
  let c := 0xdeadbeef#32 + lk32 len + initval
  let s ← lkBigger cfg base mem len ⟨c, c, c⟩
  ok s.2.2

end Wdns
