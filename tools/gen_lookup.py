#!/usr/bin/env python3
# Writes lean/Verif/Model/Lookup3.lean (the switch statements of libmy/lookup3.c have one line per case).
import os
out = []
w = out.append
w('''import Verif.Model.Crc

/-!
# Model: Bob Jenkins's hashes — libmy/lookup3.c

The file is part of the repository but not compiled into the library.  `uint32_t` values are 32-bit vectors.  The octets that may be read through
`key` are a list (the key itself and whatever follows it in the same object), its address is `base`.  The loads through `uint32_t *` and
`uint16_t *` are `load32` and `load16` of Model/Crc.  The bodies of `my_hashlittle` and `my_hashlittle2` are the same text except for the seeds
and the results and are modelled once.  This file is written by tools/gen_lookup.py.
-/

namespace Wdns
open Outcome

/-- The registers `a`, `b`, `c` — libmy/lookup3.c:185, 291, 477, 657. -/
abbrev Lk := BitVec 32 × BitVec 32 × BitVec 32

/-- `uint32_t` from a value read from memory. -/
abbrev lk32 (n : Nat) : BitVec 32 := BitVec.ofNat 32 n

/-- The macro `rot` — libmy/lookup3.c:75. -/
def lkRot (x : BitVec 32) (k : Nat) : BitVec 32 := (x <<< k) ||| (x >>> (32 - k))

/-- The macro `mix` — libmy/lookup3.c:121-129. -/
def lkMix (s : Lk) : Lk :=
  let ⟨a, b, c⟩ := s
  let a := a - c; let a := a ^^^ lkRot c 4; let c := c + b
  let b := b - a; let b := b ^^^ lkRot a 6; let a := a + c
  let c := c - b; let c := c ^^^ lkRot b 8; let b := b + a
  let a := a - c; let a := a ^^^ lkRot c 16; let c := c + b
  let b := b - a; let b := b ^^^ lkRot a 19; let a := a + c
  let c := c - b; let c := c ^^^ lkRot b 4; let b := b + a
  ⟨a, b, c⟩

/-- The macro `final` — libmy/lookup3.c:156-165. -/
def lkFinal (s : Lk) : Lk :=
  let ⟨a, b, c⟩ := s
  let c := c ^^^ b; let c := c - lkRot b 14
  let a := a ^^^ c; let a := a - lkRot c 11
  let b := b ^^^ a; let b := b - lkRot a 25
  let c := c ^^^ b; let c := c - lkRot b 16
  let a := a ^^^ c; let a := a - lkRot c 4
  let b := b ^^^ a; let b := b - lkRot a 14
  let c := c ^^^ b; let c := c - lkRot b 24
  ⟨a, b, c⟩

/-- `k[i]` of an array of `uint32_t`. -/
def lkWord (k : List (BitVec 32)) (i : Nat) : Outcome (BitVec 32) :=
  match k[i]? with
  | some v => ok v
  | none => ub
''')

def reads(exprs):
    """exprs: list of (reg, expr text with {loads}) -> lines"""
    return exprs

def loop(name, cite, dec, cond, stmts, step):
    pass

# hashword
w('''/-- The loop of `my_hashword` and `my_hashword2` — libmy/lookup3.c:191-199, 237-245; `k` is the index of the array where the pointer stands. -/
def lkWordLoop (key : List (BitVec 32)) : Nat → Nat → Nat → Lk → Outcome (Nat × Nat × Lk)
  | 0, _, _, _ => hang
  | fuel + 1, k, len, ⟨a, b, c⟩ =>
    if len > 3 then do
      let a := a + (← lkWord key k)
      let b := b + (← lkWord key (k + 1))
      let c := c + (← lkWord key (k + 2))
      lkWordLoop key fuel (k + 3) (len - 3) (lkMix ⟨a, b, c⟩)
    else ok (k, len, ⟨a, b, c⟩)
''')
def chain(prefix, cite, params, args, cases, ret0='ok s'):
    """cases: dict n -> (list of (reg, expr)), tail) where tail is 'final' or number to fall to; cite: n -> line text"""
    for n in sorted(cases):
        regs, tail = cases[n]
        ln = cite(n)
        w(f'/-- `case {n}` — libmy/lookup3.c:{ln}. -/')
        w(f'def {prefix}{n} {params} (s : Lk) : Outcome Lk := do')
        w('  let ⟨a, b, c⟩ := s')
        for reg, e in regs:
            w(f'  let {reg} := {reg} + {e}')
        if tail == 'final':
            w('  ok (lkFinal ⟨a, b, c⟩)')
        else:
            w(f'  {prefix}{tail} {args} ⟨a, b, c⟩')
        w('')
    w(f'/-- The whole `switch` — libmy/lookup3.c:{cite("all")}, followed by `final`; `case 0` returns before `final`. -/')
    w(f'def {prefix}Switch {params} (len : Nat) (s : Lk) : Outcome Lk :=')
    w('  match len with')
    for n in sorted(cases, reverse=True):
        w(f'  | {n} => {prefix}{n} {args} s')
    w('  | _ => ok s')
    w('')

chain('lkW', lambda n: {1:'206-207, 252-253',2:'205, 251',3:'204, 250','all':'202-210, 248-256'}[n],
      '(key : List (BitVec 32)) (k : Nat)', 'key k',
      {1: ([('a','(← lkWord key k)')],'final'),
       2: ([('b','(← lkWord key (k + 1))')],1),
       3: ([('c','(← lkWord key (k + 2))')],2)})
w('''/-- The registers and the rest of `my_hashword` and `my_hashword2` after the set-up. -/
def lkWords (key : List (BitVec 32)) (len : Nat) (s : Lk) : Outcome Lk := do
  let (k, len, s) ← lkWordLoop key (len + 1) 0 len s
  lkWSwitch key k len s

/-- `my_hashword` — libmy/lookup3.c:180-213. -/
def hashword (key : List (BitVec 32)) (len : Nat) (initval : BitVec 32) : Outcome (BitVec 32) := do
  let c := 0xdeadbeef#32 + (lk32 len <<< 2) + initval
  let s ← lkWords key len ⟨c, c, c⟩
  ok s.2.2

/-- `my_hashword2` — libmy/lookup3.c:224-259: `*pc` and `*pb`. -/
def hashword2 (key : List (BitVec 32)) (len : Nat) (pc pb : BitVec 32) : Outcome (BitVec 32 × BitVec 32) := do
  let c := 0xdeadbeef#32 + lk32 (len <<< 2) + pc
  let s ← lkWords key len ⟨c, c, c + pb⟩
  ok (s.2.2, s.2.1)
''')

L32 = lambda big,i: f'lk32 (← load32 {big} mem (p + {4*i}))' if i else f'lk32 (← load32 {big} mem p)'
def at(i): return f'(p + {i})' if i else 'p'
def byte(i, sh):
    v = f'lk32 (← rd mem {at(i)}).toNat'
    return f'({v} <<< {sh})' if sh else f'{v}'
def word(big,i,mask=None):
    v = f'lk32 (← load32 {big} mem {at(4*i)})'
    return f'({v} &&& {mask}#32)' if mask else v
def half2(i):  # k[i] + (((uint32_t)k[i+1])<<16)
    return f'(lk32 (← load16 mem {at(2*i)}) + (lk32 (← load16 mem {at(2*i+2)}) <<< 16))'
def half(i): return f'lk32 (← load16 mem {at(2*i)})'
R='abc'

def dloop(name, cite, what, stm):
    w(f'/-- {what} — libmy/lookup3.c:{cite}; `p` is the offset of the pointer in the key. -/')
    w(f'def {name} (mem : List UInt8) : Nat → Nat → Nat → Lk → Outcome (Nat × Nat × Lk)')
    w('  | 0, _, _, _ => hang')
    w('  | fuel + 1, p, len, ⟨a, b, c⟩ =>')
    w('    if len > 12 then do')
    for reg,e in stm: w(f'      let {reg} := {reg} + {e}')
    w(f'      {name} mem fuel (p + 12) (len - 12) (lkMix ⟨a, b, c⟩)')
    w('    else ok (p, len, ⟨a, b, c⟩)')
    w('')

P='(mem : List UInt8) (p : Nat)'; A='mem p'
two = lambda a,b: (lambda n: f'{a[n]}, {b[n]}' if b else f'{a[n]}')
def lines(start, start2=None, extra=None):
    """case n at line start + (12 - n)"""
    def f(n):
        if n=='all':
            r=f'{start-2}-{start+13}'
            return r+(f', {start2-2}-{start2+13}' if start2 else '')
        r=f'{start+12-n}'
        return r+(f', {start2+12-n}' if start2 else '')
    return f

for big in (False, True):
    B='true' if big else 'false'; N='lkBig' if big else 'lkLit'
    cl = {'False':('305-313, 492-500',), 'True':('671-679',)}[str(big)][0]
    dloop(f'{N}WordLoop', cl, 'The loop of 32-bit reads', [(R[i],word(B,i)) for i in range(3)])
    # masked
    M = {3:'0xffffff00',2:'0xffff0000',1:'0xff000000'} if big else {3:'0xffffff',2:'0xffff',1:'0xff'}
    cases={}
    for n in range(1,13):
        full, part = n//4, n%4
        regs=[]
        if part: regs.append((R[full], word(B,full,M[part])))
        for i in reversed(range(full)): regs.append((R[i], word(B,i)))
        cases[n]=(regs,'final')
    chain(f'{N}Mask', lines(695) if big else lines(329,516), P, A, cases)
    # valgrind
    cases={}
    for n in range(1,13):
        full, part = n//4, n%4
        if part==0:
            cases[n]=([(R[i], word(B,i)) for i in reversed(range(full))],'final')
        else:
            i=n-1; sh = 24-8*(i%4) if big else 8*(i%4)
            cases[n]=([(R[full], byte(i,sh))], n-1 if n>1 else 'final')
    chain(f'{N}Val', lines(715) if big else lines(349,536), P, A, cases)
    if not big:
        dloop('lkHalfLoop','371-379, 558-566','The loop of 16-bit reads',[(R[i],half2(2*i)) for i in range(3)])
        cases={12:([('c',half2(4)),('b',half2(2)),('a',half2(0))],'final'),
               11:([('c',byte(10,16))],10),
               10:([('c',half(4)),('b',half2(2)),('a',half2(0))],'final'),
               9:([('c',byte(8,0))],8),
               8:([('b',half2(2)),('a',half2(0))],'final'),
               7:([('b',byte(6,16))],6),
               6:([('b',half(2)),('a',half2(0))],'final'),
               5:([('b',byte(4,0))],4),
               4:([('a',half2(0))],'final'),
               3:([('a',byte(2,16))],2),
               2:([('a',half(0))],'final'),
               1:([('a',byte(0,0))],'final')}
        cite={12:'385-388',11:'389',10:'390-393',9:'394',8:'395-397',7:'398',6:'399-401',5:'402',4:'403-404',3:'405',2:'406-407',1:'408-409','all':'383-411'}
        def c2(n):
            import re
            return cite[n]+', '+re.sub(r'\d+',lambda m:str(int(m.group())+187),cite[n])
        chain('lkHalf', c2, P, A, cases)
    cl = '736-753' if big else '417-434, 604-621'
    dloop(f'{N}ByteLoop', cl, 'The loop of single octets', [(R[i//4], byte(i, 24-8*(i%4) if big else 8*(i%4))) for i in range(12)])
    cases={}
    for n in range(1,13):
        i=n-1; sh = 24-8*(i%4) if big else 8*(i%4)
        cases[n]=([(R[i//4], byte(i,sh))], n-1 if n>1 else 'final')
    chain(f'{N}Byte', lines(758) if big else lines(439,626), P, A, cases)

w('''/-- How the file is compiled: `HASH_LITTLE_ENDIAN` and `HASH_BIG_ENDIAN` (libmy/lookup3.c:58-71: both false for an unknown machine, never both
true), and whether `VALGRIND` is defined. -/
structure LkCfg where
  little : Bool
  big : Bool
  valgrind : Bool

/-- The body of `my_hashlittle` (libmy/lookup3.c:297-457) and of `my_hashlittle2` (484-644) after the set-up. -/
def lkLittle (cfg : LkCfg) (base : Nat) (mem : List UInt8) (len : Nat) (s : Lk) : Outcome Lk :=
  if cfg.little ∧ base &&& 3 = 0 then do
    let (p, len, s) ← lkLitWordLoop mem (len + 1) 0 len s
    if cfg.valgrind then lkLitValSwitch mem p len s else lkLitMaskSwitch mem p len s
  else if cfg.little ∧ base &&& 1 = 0 then do
    let (p, len, s) ← lkHalfLoop mem (len + 1) 0 len s
    lkHalfSwitch mem p len s
  else do
    let (p, len, s) ← lkLitByteLoop mem (len + 1) 0 len s
    lkLitByteSwitch mem p len s

/-- `my_hashlittle` — libmy/lookup3.c:289-458. -/
def hashlittle (cfg : LkCfg) (base : Nat) (mem : List UInt8) (len : Nat) (initval : BitVec 32) : Outcome (BitVec 32) := do
  let c := 0xdeadbeef#32 + lk32 len + initval
  let s ← lkLittle cfg base mem len ⟨c, c, c⟩
  ok s.2.2

/-- `my_hashlittle2` — libmy/lookup3.c:471-645: `*pc` and `*pb`. -/
def hashlittle2 (cfg : LkCfg) (base : Nat) (mem : List UInt8) (len : Nat) (pc pb : BitVec 32) : Outcome (BitVec 32 × BitVec 32) := do
  let c := 0xdeadbeef#32 + lk32 len + pc
  let s ← lkLittle cfg base mem len ⟨c, c, c + pb⟩
  ok (s.2.2, s.2.1)

/-- The body of `my_hashbig` after the set-up — libmy/lookup3.c:663-775. -/
def lkBigger (cfg : LkCfg) (base : Nat) (mem : List UInt8) (len : Nat) (s : Lk) : Outcome Lk :=
  if cfg.big ∧ base &&& 3 = 0 then do
    let (p, len, s) ← lkBigWordLoop mem (len + 1) 0 len s
    if cfg.valgrind then lkBigValSwitch mem p len s else lkBigMaskSwitch mem p len s
  else do
    let (p, len, s) ← lkBigByteLoop mem (len + 1) 0 len s
    lkBigByteSwitch mem p len s

/-- `my_hashbig` — libmy/lookup3.c:655-777. -/
def hashbig (cfg : LkCfg) (base : Nat) (mem : List UInt8) (len : Nat) (initval : BitVec 32) : Outcome (BitVec 32) := do
  let c := 0xdeadbeef#32 + lk32 len + initval
  let s ← lkBigger cfg base mem len ⟨c, c, c⟩
  ok s.2.2

end Wdns''')
open(os.path.join(os.path.dirname(os.path.abspath(__file__)),'..','lean','Verif','Model','Lookup3.lean'),'w').write('\n'.join(out)+'\n')
