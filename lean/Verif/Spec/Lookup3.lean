import Mathlib.Logic.Function.Basic

/-!
# Specification: Jenkins's lookup3 hash, on octets and on words

Written from the published description of the hash, without alignment, byte order of the machine, partial words or memory.  A key of octets is cut
into words of four octets (the last one completed with zero octets), read with the first octet lowest (`big = false`) or highest (`big = true`).
Three words at a time are added to three registers, which are then mixed; the last one, two or three words are followed by a different, final
mixing; no word at all, no mixing.
-/

namespace Wdns.Spec

/-- The three registers a, b, c. -/
abbrev Regs := BitVec 32 × BitVec 32 × BitVec 32

/-- Six rounds: subtract, exclusive-or with the rotated register, add; the roles of the three registers rotate. -/
def mixRound (k : Nat) : Regs → Regs
  | (a, b, c) => (b, c + b, (a - c) ^^^ c.rotateLeft k)

/-- The mixing between blocks: the rounds return the registers in the order b, c, a. -/
def mix (s : Regs) : Regs :=
  mixRound 4 (mixRound 19 (mixRound 16 (mixRound 8 (mixRound 6 (mixRound 4 s)))))

/-- One round of the final mixing: c is changed by b; then the registers are renamed so that a is changed by (the new) c, b by a, and so on. -/
def finalRound (k : Nat) : Regs → Regs
  | (a, b, c) => (b, (c ^^^ b) - b.rotateLeft k, a)

/-- The final mixing: c by b, a by c, b by a, and again, and c by b a last time. -/
def final (s : Regs) : Regs :=
  match finalRound 24 (finalRound 14 (finalRound 4 (finalRound 16 (finalRound 25 (finalRound 11 (finalRound 14 s)))))) with
  | (b, c, a) => (a, b, c)

/-- The words of a key, three at a time. -/
def hashRegs : Regs → List (BitVec 32) → Regs
  | s, [] => s
  | (a, b, c), [x] => final (a + x, b, c)
  | (a, b, c), [x, y] => final (a + x, b + y, c)
  | (a, b, c), [x, y, z] => final (a + x, b + y, c + z)
  | (a, b, c), x :: y :: z :: w :: rest => hashRegs (mix (a + x, b + y, c + z)) (w :: rest)

/-- The registers before the first word: all three are the same constant plus the length in octets plus the first seed; the second seed goes to
the last one. -/
def seedRegs (octets : Nat) (seed seed2 : BitVec 32) : Regs :=
  let r := 0xdeadbeef#32 + BitVec.ofNat 32 octets + seed
  (r, r, r + seed2)

/-- A word of (at most) four octets. -/
def hashWord (big : Bool) (os : List UInt8) : BitVec 32 :=
  let o := fun i => (os.getD i 0).toNat
  BitVec.ofNat 32 (if big then o 0 * 2 ^ 24 + o 1 * 2 ^ 16 + o 2 * 2 ^ 8 + o 3 else o 0 + o 1 * 2 ^ 8 + o 2 * 2 ^ 16 + o 3 * 2 ^ 24)

/-- The words of a key of octets. -/
def hashKey (big : Bool) : List UInt8 → List (BitVec 32)
  | [] => []
  | [o] => [hashWord big [o]]
  | [o, p] => [hashWord big [o, p]]
  | [o, p, q] => [hashWord big [o, p, q]]
  | o :: p :: q :: r :: rest => hashWord big [o, p, q, r] :: hashKey big rest

/-- The hash of a key of octets: the primary and the secondary value. -/
def hashOctets (big : Bool) (key : List UInt8) (seed seed2 : BitVec 32) : BitVec 32 × BitVec 32 :=
  let (_, b, c) := hashRegs (seedRegs key.length seed seed2) (hashKey big key)
  (c, b)

/-- The hash of a key of words. -/
def hashWords (key : List (BitVec 32)) (seed seed2 : BitVec 32) : BitVec 32 × BitVec 32 :=
  let (_, b, c) := hashRegs (seedRegs (4 * key.length) seed seed2) key
  (c, b)

/-- A word as four octets in memory. -/
def wordOctets (big : Bool) (w : BitVec 32) : List UInt8 :=
  let o := fun i => UInt8.ofNat (w.toNat / 256 ^ i)
  if big then [o 3, o 2, o 1, o 0] else [o 0, o 1, o 2, o 3]

end Wdns.Spec
