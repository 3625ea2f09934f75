#!/usr/bin/env python3
# Writes lean/Verif/Lemmas/Lookup3Run.lean: one lemma per loop and per switch of Model/Lookup3.lean.
import os
out=[]; w=out.append
w('''import Verif.Lemmas.Lookup3

/-! # The loops and switches of libmy/lookup3.c (written by tools/gen_lookup_lemmas.py) -/

set_option linter.unusedSimpArgs false

namespace Wdns
open Outcome

theorem lkO_shl0 (o : UInt8) (i : Nat) : lkO o 0 <<< i = lkO o i := by rw [← lkO_zero, lkO_shl]

theorem half_shl0 (a b : UInt8) : (lkO a 0 + lkO b 8) <<< 16 = lkO a 16 + lkO b 24 := by rw [← half_word, half_shl]

theorem lit_mask3' (a b c d : UInt8) : (lkO a 0 + lkO b 8 + lkO c 16 + lkO d 24) &&& 0xffffff#32 = lkO a 0 + lkO b 8 + lkO c 16 := by
  rw [← lit_word, lit_mask3]

theorem lit_mask2' (a b c d : UInt8) : (lkO a 0 + lkO b 8 + lkO c 16 + lkO d 24) &&& 0xffff#32 = lkO a 0 + lkO b 8 := by
  rw [← lit_word, lit_mask2]

theorem lit_mask1' (a b c d : UInt8) : (lkO a 0 + lkO b 8 + lkO c 16 + lkO d 24) &&& 0xff#32 = lkO a 0 := by
  rw [← lit_word, lit_mask1]

theorem big_mask3' (a b c d : UInt8) : (lkO a 24 + lkO b 16 + lkO c 8 + lkO d 0) &&& 0xffffff00#32 = lkO a 24 + lkO b 16 + lkO c 8 := by
  rw [← big_word, big_mask3]

theorem big_mask2' (a b c d : UInt8) : (lkO a 24 + lkO b 16 + lkO c 8 + lkO d 0) &&& 0xffff0000#32 = lkO a 24 + lkO b 16 := by
  rw [← big_word, big_mask2]

theorem big_mask1' (a b c d : UInt8) : (lkO a 24 + lkO b 16 + lkO c 8 + lkO d 0) &&& 0xff000000#32 = lkO a 24 := by
  rw [← big_word, big_mask1]

theorem lk_left_comm (x y z : BitVec 32) : x + (y + z) = y + (x + z) := by
  rw [← BitVec.add_assoc, BitVec.add_comm x, BitVec.add_assoc]

theorem hashKey_cons (big : Bool) (o : UInt8) (os : List UInt8) : ∃ (v : BitVec 32) (vs : List (BitVec 32)), Spec.hashKey big (o :: os) = v :: vs := by
  match os with
  | [] | [_] | [_, _] => exact ⟨_, _, rfl⟩
  | _ :: _ :: _ :: _ => exact ⟨_, _, rfl⟩

theorem one_of {ts : List UInt8} (h : ts.length = 1) : ∃ a, ts = [a] := by
  match ts, h with
  | [a], _ => exact ⟨a, rfl⟩

theorem two_oct {ts : List UInt8} (h : ts.length = 2) : ∃ a b, ts = [a, b] := by
  match ts, h with
  | [a, b], _ => exact ⟨a, b, rfl⟩

theorem three_of {ts : List UInt8} (h : ts.length = 3) : ∃ a b c, ts = [a, b, c] := by
  match ts, h with
  | [a, b, c], _ => exact ⟨a, b, c, rfl⟩

theorem none_of {ts : List UInt8} (h : ts.length = 0) : ts = [] := List.length_eq_zero_iff.mp h
''')
COMMON='''ok_bind, lkFinal_eq, lkMix_eq, lkO_shl0, lkO_zero, load32, load16, lit_word, big_word, half_word, half_shl0,
      lit_mask3', lit_mask2', lit_mask1', big_mask3', big_mask2', big_mask1', Bool.false_eq_true, if_false, if_true, Nat.add_assoc, Nat.reduceAdd'''
SPEC='''Spec.hashKey, Spec.hashRegs, hashWord_false, hashWord_true, List.getD_cons_zero, List.getD_cons_succ, List.getD_nil, lkO_nil,
      BitVec.add_zero, BitVec.zero_add'''
AC='BitVec.add_comm, lk_left_comm, BitVec.add_assoc'
def lst(n,tail=''):
    return '['+', '.join(f'o{i}' for i in range(n))+']'
def switch(pre, big, mask):
    B='true' if big else 'false'
    nm=pre[2:]; nm=nm[0].lower()+nm[1:]
    defs=', '.join([f'{pre}Switch']+[f'{pre}{i}' for i in range(1,13)])
    extra=' (ts : List UInt8)' if mask else ''
    hyp='RdAll mem p (os ++ ts) → os.length ≤ 12 → ts.length < 4 → (os.length + ts.length) % 4 = 0' if mask else 'RdAll mem p os → os.length ≤ 12'
    w(f'theorem {nm}_switch {{mem : List UInt8}} {{p : Nat}} (s : Lk) : ∀ (os{" ts" if mask else ""} : List UInt8), {hyp} →')
    w(f'    {pre}Switch mem p os.length s = ok (Spec.hashRegs s (Spec.hashKey {B} os)) := by')
    w('  obtain ⟨a, b, c⟩ := s')
    w('  intro os ts h hn ht hm' if mask else '  intro os h hn')
    w('  match os, h, hn, hm with' if mask else '  match os, h, hn with')
    u=', _' if mask else ''
    w(f'  | [], _, _{u} => rfl')
    for n in range(1,13):
        w(f'  | {lst(n)}, h, _{", hm" if mask else ""} =>')
        if mask:
            w('    simp only [List.length_cons, List.length_nil] at hm')
            k=(-n)%4
            nmx=['none_of','one_of','two_oct','three_of'][k]
            if k==0: w('    obtain rfl := none_of (ts := ts) (by omega)')
            else: w('    obtain ⟨'+', '.join(f't{i}' for i in range(k))+f', rfl⟩ := {nmx} (ts := ts) (by omega)')
        w('    simp only [RdAll, List.cons_append, List.nil_append, List.append_nil, Nat.add_assoc, Nat.reduceAdd] at h')
        w(f'    simp only [List.length_cons, List.length_nil, {defs}, h,\n      {COMMON}, {SPEC}]')
        w(f'    try simp only [{AC}]')
    w(f'  | _ :: _ :: _ :: _ :: _ :: _ :: _ :: _ :: _ :: _ :: _ :: _ :: _ :: _, _, hn{u} => simp only [List.length_cons] at hn; omega')
    w('')
def loop(loopname, lem, sw, big, mask, extra=None):
    B='true' if big else 'false'
    ts=' ts' if mask else ''
    hyp='RdAll mem p (os ++ ts) → os.length = len → ts.length < 4 → (len + ts.length) % 4 = 0 → len < fuel' if mask else 'RdAll mem p os → os.length = len → len < fuel'
    w(f'theorem {lem}_run {{mem : List UInt8}} : ∀ (fuel p len : Nat) (s : Lk) (os{ts} : List UInt8), {hyp} →')
    w(f'    (do let (p, len, s) ← {loopname} mem fuel p len s; {sw}Switch mem p len s) = ok (Spec.hashRegs s (Spec.hashKey {B} os))')
    if mask:
        w('  | 0, _, _, _, _, _, _, _, _, _, hf => absurd hf (by omega)')
        w('  | fuel + 1, p, len, (a, b, c), os, ts, h, hl, ht, hm, hf => by')
    else:
        w('  | 0, _, _, _, _, _, _, hf => absurd hf (by omega)')
        w('  | fuel + 1, p, len, (a, b, c), os, h, hl, hf => by')
    w(f'    rw [{loopname}]')
    w('    by_cases hn : len > 12')
    w('    · rw [if_pos hn]')
    w('      obtain ⟨'+', '.join(f'o{i}' for i in range(12))+', o, rest, rfl⟩ : ∃ '+' '.join(f'o{i}' for i in range(12))+' o, ∃ rest : List UInt8, os = '+' :: '.join(f'o{i}' for i in range(12))+' :: o :: rest := by')
    w('        match os, hl with')
    w('        | '+' :: '.join(f'o{i}' for i in range(12))+' :: o :: rest, _ => exact ⟨'+', '.join(['_']*14)+', rfl⟩')
    for n in range(0,13):
        w('        | '+'['+', '.join('_' for i in range(n))+'], hl => simp only [List.length_cons, List.length_nil] at hl; omega')
    w('      simp only [List.length_cons] at hl')
    w(f'      have hr : RdAll mem (p + 12) ((o :: rest){" ++ ts" if mask else ""}) := by')
    w('        simp only [RdAll, List.cons_append, Nat.add_assoc, Nat.reduceAdd] at h ⊢')
    w('        exact h.2.2.2.2.2.2.2.2.2.2.2.2')
    if mask:
        w(f'      have ih := {lem}_run fuel (p + 12) (len - 12) (Spec.mix (a + Spec.hashWord {B} [o0, o1, o2, o3], b + Spec.hashWord {B} [o4, o5, o6, o7], c + Spec.hashWord {B} [o8, o9, o10, o11]))\n        (o :: rest) ts hr (by simp only [List.length_cons]; omega) ht (by omega) (by omega)')
    else:
        w(f'      have ih := {lem}_run fuel (p + 12) (len - 12) (Spec.mix (a + Spec.hashWord {B} [o0, o1, o2, o3], b + Spec.hashWord {B} [o4, o5, o6, o7], c + Spec.hashWord {B} [o8, o9, o10, o11]))\n        (o :: rest) hr (by simp only [List.length_cons]; omega) (by omega)')
    w(f'      obtain ⟨v, vs, hv⟩ := hashKey_cons {B} o rest')
    w(f'      have e : Spec.hashRegs (a, b, c) (Spec.hashKey {B} ('+' :: '.join(f'o{i}' for i in range(12))+f' :: o :: rest)) = Spec.hashRegs (Spec.mix (a + Spec.hashWord {B} [o0, o1, o2, o3],\n          b + Spec.hashWord {B} [o4, o5, o6, o7], c + Spec.hashWord {B} [o8, o9, o10, o11])) (Spec.hashKey {B} (o :: rest)) := by')
    w('        simp only [Spec.hashKey.eq_5]; rw [hv, Spec.hashRegs]')
    w('      rw [e, ← ih]')
    w('      simp only [RdAll, List.cons_append, Nat.add_assoc, Nat.reduceAdd] at h')
    w('      obtain ⟨'+', '.join(f'h{i}' for i in range(12))+', -⟩ := h')
    w(f'      simp only [{", ".join(f"h{i}" for i in range(12))}, {COMMON}, hashWord_false, hashWord_true, List.getD_cons_zero, List.getD_cons_succ, ← BitVec.add_assoc]')
    w('    · rw [if_neg hn, ok_bind]')
    w('      subst hl')
    nm=sw[2:]; nm=nm[0].lower()+nm[1:]
    if mask: w(f'      exact {nm}_switch _ os ts h (by omega) ht hm')
    else: w(f'      exact {nm}_switch _ os h (by omega)')
    w('')
for pre,big,mask in [('lkLitMask',False,True),('lkLitVal',False,False),('lkHalf',False,False),('lkLitByte',False,False),('lkBigMask',True,True),('lkBigVal',True,False),('lkBigByte',True,False)]:
    switch(pre,big,mask)
for lp,lem,sw,big,mask in [('lkLitWordLoop','litMask','lkLitMask',False,True),('lkLitWordLoop','litVal','lkLitVal',False,False),('lkHalfLoop','half','lkHalf',False,False),
    ('lkLitByteLoop','litByte','lkLitByte',False,False),('lkBigWordLoop','bigMask','lkBigMask',True,True),('lkBigWordLoop','bigVal','lkBigVal',True,False),('lkBigByteLoop','bigByte','lkBigByte',True,False)]:
    loop(lp,lem,sw,big,mask)

def over(loopname, pre, lem, big):
    B='true' if big else 'false'
    defs=', '.join([f'{pre}Switch']+[f'{pre}{i}' for i in range(1,13)])
    w(f'theorem {lem}_over {{mem : List UInt8}} : ∀ (fuel p len : Nat) (s : Lk) (os : List UInt8), RdAll mem p os → os.length = len → mem.length = p + len → len % 4 ≠ 0 → len < fuel →')
    w(f'    (do let (p, len, s) ← {loopname} mem fuel p len s; {pre}Switch mem p len s) = ub')
    w('  | 0, _, _, _, _, _, _, _, _, hf => absurd hf (by omega)')
    w('  | fuel + 1, p, len, (a, b, c), os, h, hl, he, hm, hf => by')
    w(f'    rw [{loopname}]')
    w('    by_cases hn : len > 12')
    w('    · rw [if_pos hn]')
    w('      obtain ⟨'+', '.join(f'o{i}' for i in range(12))+', o, rest, rfl⟩ : ∃ '+' '.join(f'o{i}' for i in range(12))+' o, ∃ rest : List UInt8, os = '+' :: '.join(f'o{i}' for i in range(12))+' :: o :: rest := by')
    w('        match os, hl with')
    w('        | '+' :: '.join(f'o{i}' for i in range(12))+' :: o :: rest, _ => exact ⟨'+', '.join(['_']*14)+', rfl⟩')
    for n in range(0,13):
        w('        | '+'['+', '.join('_' for i in range(n))+'], hl => simp only [List.length_cons, List.length_nil] at hl; omega')
    w('      simp only [List.length_cons] at hl')
    w(f'      have hr : RdAll mem (p + 12) (o :: rest) := by')
    w('        simp only [RdAll, Nat.add_assoc, Nat.reduceAdd] at h ⊢')
    w('        exact h.2.2.2.2.2.2.2.2.2.2.2.2')
    w('      simp only [RdAll, Nat.add_assoc, Nat.reduceAdd] at h')
    w('      obtain ⟨'+', '.join(f'h{i}' for i in range(12))+', -⟩ := h')
    w('      simp only [load32, '+', '.join(f'h{i}' for i in range(12))+', Nat.add_assoc, Nat.reduceAdd, ok_bind, Bool.false_eq_true, if_false, if_true]')
    w(f'      exact {lem}_over fuel (p + 12) (len - 12) _ (o :: rest) hr (by simp only [List.length_cons]; omega) (by omega) (by omega) (by omega)')
    w('    · rw [if_neg hn, ok_bind]')
    w('      dsimp only')
    w('      subst hl')
    w('      have hub : rd mem (p + os.length) = ub := by')
    w('        unfold rd')
    w('        rw [List.getElem?_eq_none (by omega)]')
    w('      match os, h, hn, hm, hub with')
    w('      | [], _, _, hm, _ => exact absurd (by simp) hm')
    for n in range(1,13):
        w(f'      | {lst(n)}, h, _, hm, hub =>')
        if n%4==0:
            w('        exact absurd (by simp) hm')
        else:
            w('        simp only [RdAll, Nat.add_assoc, Nat.reduceAdd] at h')
            w('        simp only [List.length_cons, List.length_nil, Nat.reduceAdd] at hub')
            w(f'        simp only [List.length_cons, List.length_nil, {pre}Switch, {pre}{n}, h, hub, load32, Nat.add_assoc, Nat.reduceAdd, ok_bind, ub_bind]')
    w(f'      | _ :: _ :: _ :: _ :: _ :: _ :: _ :: _ :: _ :: _ :: _ :: _ :: _ :: _, _, hn, _, _ => simp only [List.length_cons] at hn; omega')
    w('')
over('lkLitWordLoop','lkLitMask','litMask',False)
over('lkBigWordLoop','lkBigMask','bigMask',True)
w('end Wdns')
open(os.path.join(os.path.dirname(os.path.abspath(__file__)),'..','lean','Verif','Lemmas','Lookup3Run.lean'),'w').write('\n'.join(out)+'\n')
