import Verif.Lemmas.Lookup3

/-! # The loops and switches of libmy/lookup3.c (written by tools/gen_lookup_lemmas.py) -/

set_option linter.unusedSimpArgs false

namespace Wdns
open Outcome

theorem lkO_shl0 (o : UInt8) (i : Nat) : lkO o 0 <<< i = lkO o i := by rw [← lkO_zero, lkO_shl]

theorem half_shl0 (a b : UInt8) : (lkO a 0 + lkO b 8) <<< 16 = lkO a 16 + lkO b 24 := by rw [← half_word, half_shl]

theorem lit_mask3' (a b c d : UInt8) : (lkO a 0 + lkO b 8 + lkO c 16 + lkO d 24) &&& 0xffffff#32 = lkO a 0 + lkO b 8 + lkO c 16 := by
  rw [← lit_word, lit_mask3]

theorem lit_mask2' (a b c d : UInt8) : (lkO a 0 + lkO b 8 + lkO c 16 + lkO d 24) &&& 0xffff#32 = lkO a 0 + lkO b 8 := by
  rw [← lit_word, lit_mask2]

theorem lit_mask1' (a b c d : UInt8) : (lkO a 0 + lkO b 8 + lkO c 16 + lkO d 24) &&& 0xff#32 = lkO a 0 := by
  rw [← lit_word, lit_mask1]

theorem big_mask3' (a b c d : UInt8) : (lkO a 24 + lkO b 16 + lkO c 8 + lkO d 0) &&& 0xffffff00#32 = lkO a 24 + lkO b 16 + lkO c 8 := by
  rw [← big_word, big_mask3]

theorem big_mask2' (a b c d : UInt8) : (lkO a 24 + lkO b 16 + lkO c 8 + lkO d 0) &&& 0xffff0000#32 = lkO a 24 + lkO b 16 := by
  rw [← big_word, big_mask2]

theorem big_mask1' (a b c d : UInt8) : (lkO a 24 + lkO b 16 + lkO c 8 + lkO d 0) &&& 0xff000000#32 = lkO a 24 := by
  rw [← big_word, big_mask1]

theorem lk_left_comm (x y z : BitVec 32) : x + (y + z) = y + (x + z) := by
  rw [← BitVec.add_assoc, BitVec.add_comm x, BitVec.add_assoc]

theorem hashKey_cons (big : Bool) (o : UInt8) (os : List UInt8) : ∃ (v : BitVec 32) (vs : List (BitVec 32)), Spec.hashKey big (o :: os) = v :: vs := by
  match os with
  | [] | [_] | [_, _] => exact ⟨_, _, rfl⟩
  | _ :: _ :: _ :: _ => exact ⟨_, _, rfl⟩

theorem one_of {ts : List UInt8} (h : ts.length = 1) : ∃ a, ts = [a] := by
  match ts, h with
  | [a], _ => exact ⟨a, rfl⟩

theorem two_oct {ts : List UInt8} (h : ts.length = 2) : ∃ a b, ts = [a, b] := by
  match ts, h with
  | [a, b], _ => exact ⟨a, b, rfl⟩

theorem three_of {ts : List UInt8} (h : ts.length = 3) : ∃ a b c, ts = [a, b, c] := by
  match ts, h with
  | [a, b, c], _ => exact ⟨a, b, c, rfl⟩

theorem none_of {ts : List UInt8} (h : ts.length = 0) : ts = [] := List.length_eq_zero_iff.mp h

theorem litMask_switch {mem : List UInt8} {p : Nat} (s : Lk) : ∀ (os ts : List UInt8), RdAll mem p (os ++ ts) → os.length ≤ 12 → ts.length < 4 → (os.length + ts.length) % 4 = 0 →
    lkLitMaskSwitch mem p os.length s = ok (Spec.hashRegs s (Spec.hashKey false os)) := by
  obtain ⟨a, b, c⟩ := s
  intro os ts h hn ht hm
  match os, h, hn, hm with
  | [], _, _, _ => rfl
  | [o0], h, _, hm =>
    simp only [List.length_cons, List.length_nil] at hm
    obtain ⟨t0, t1, t2, rfl⟩ := three_of (ts := ts) (by omega)
    simp only [RdAll, List.cons_append, List.nil_append, List.append_nil, Nat.add_assoc, Nat.reduceAdd] at h
    simp only [List.length_cons, List.length_nil, lkLitMaskSwitch, lkLitMask1, lkLitMask2, lkLitMask3, lkLitMask4, lkLitMask5, lkLitMask6, lkLitMask7, lkLitMask8, lkLitMask9, lkLitMask10, lkLitMask11, lkLitMask12, h,
      ok_bind, lkFinal_eq, lkMix_eq, lkO_shl0, lkO_zero, load32, load16, lit_word, big_word, half_word, half_shl0,
      lit_mask3', lit_mask2', lit_mask1', big_mask3', big_mask2', big_mask1', Bool.false_eq_true, if_false, if_true, Nat.add_assoc, Nat.reduceAdd, Spec.hashKey, Spec.hashRegs, hashWord_false, hashWord_true, List.getD_cons_zero, List.getD_cons_succ, List.getD_nil, lkO_nil,
      BitVec.add_zero, BitVec.zero_add]
    try simp only [BitVec.add_comm, lk_left_comm, BitVec.add_assoc]
  | [o0, o1], h, _, hm =>
    simp only [List.length_cons, List.length_nil] at hm
    obtain ⟨t0, t1, rfl⟩ := two_oct (ts := ts) (by omega)
    simp only [RdAll, List.cons_append, List.nil_append, List.append_nil, Nat.add_assoc, Nat.reduceAdd] at h
    simp only [List.length_cons, List.length_nil, lkLitMaskSwitch, lkLitMask1, lkLitMask2, lkLitMask3, lkLitMask4, lkLitMask5, lkLitMask6, lkLitMask7, lkLitMask8, lkLitMask9, lkLitMask10, lkLitMask11, lkLitMask12, h,
      ok_bind, lkFinal_eq, lkMix_eq, lkO_shl0, lkO_zero, load32, load16, lit_word, big_word, half_word, half_shl0,
      lit_mask3', lit_mask2', lit_mask1', big_mask3', big_mask2', big_mask1', Bool.false_eq_true, if_false, if_true, Nat.add_assoc, Nat.reduceAdd, Spec.hashKey, Spec.hashRegs, hashWord_false, hashWord_true, List.getD_cons_zero, List.getD_cons_succ, List.getD_nil, lkO_nil,
      BitVec.add_zero, BitVec.zero_add]
    try simp only [BitVec.add_comm, lk_left_comm, BitVec.add_assoc]
  | [o0, o1, o2], h, _, hm =>
    simp only [List.length_cons, List.length_nil] at hm
    obtain ⟨t0, rfl⟩ := one_of (ts := ts) (by omega)
    simp only [RdAll, List.cons_append, List.nil_append, List.append_nil, Nat.add_assoc, Nat.reduceAdd] at h
    simp only [List.length_cons, List.length_nil, lkLitMaskSwitch, lkLitMask1, lkLitMask2, lkLitMask3, lkLitMask4, lkLitMask5, lkLitMask6, lkLitMask7, lkLitMask8, lkLitMask9, lkLitMask10, lkLitMask11, lkLitMask12, h,
      ok_bind, lkFinal_eq, lkMix_eq, lkO_shl0, lkO_zero, load32, load16, lit_word, big_word, half_word, half_shl0,
      lit_mask3', lit_mask2', lit_mask1', big_mask3', big_mask2', big_mask1', Bool.false_eq_true, if_false, if_true, Nat.add_assoc, Nat.reduceAdd, Spec.hashKey, Spec.hashRegs, hashWord_false, hashWord_true, List.getD_cons_zero, List.getD_cons_succ, List.getD_nil, lkO_nil,
      BitVec.add_zero, BitVec.zero_add]
    try simp only [BitVec.add_comm, lk_left_comm, BitVec.add_assoc]
  | [o0, o1, o2, o3], h, _, hm =>
    simp only [List.length_cons, List.length_nil] at hm
    obtain rfl := none_of (ts := ts) (by omega)
    simp only [RdAll, List.cons_append, List.nil_append, List.append_nil, Nat.add_assoc, Nat.reduceAdd] at h
    simp only [List.length_cons, List.length_nil, lkLitMaskSwitch, lkLitMask1, lkLitMask2, lkLitMask3, lkLitMask4, lkLitMask5, lkLitMask6, lkLitMask7, lkLitMask8, lkLitMask9, lkLitMask10, lkLitMask11, lkLitMask12, h,
      ok_bind, lkFinal_eq, lkMix_eq, lkO_shl0, lkO_zero, load32, load16, lit_word, big_word, half_word, half_shl0,
      lit_mask3', lit_mask2', lit_mask1', big_mask3', big_mask2', big_mask1', Bool.false_eq_true, if_false, if_true, Nat.add_assoc, Nat.reduceAdd, Spec.hashKey, Spec.hashRegs, hashWord_false, hashWord_true, List.getD_cons_zero, List.getD_cons_succ, List.getD_nil, lkO_nil,
      BitVec.add_zero, BitVec.zero_add]
    try simp only [BitVec.add_comm, lk_left_comm, BitVec.add_assoc]
  | [o0, o1, o2, o3, o4], h, _, hm =>
    simp only [List.length_cons, List.length_nil] at hm
    obtain ⟨t0, t1, t2, rfl⟩ := three_of (ts := ts) (by omega)
    simp only [RdAll, List.cons_append, List.nil_append, List.append_nil, Nat.add_assoc, Nat.reduceAdd] at h
    simp only [List.length_cons, List.length_nil, lkLitMaskSwitch, lkLitMask1, lkLitMask2, lkLitMask3, lkLitMask4, lkLitMask5, lkLitMask6, lkLitMask7, lkLitMask8, lkLitMask9, lkLitMask10, lkLitMask11, lkLitMask12, h,
      ok_bind, lkFinal_eq, lkMix_eq, lkO_shl0, lkO_zero, load32, load16, lit_word, big_word, half_word, half_shl0,
      lit_mask3', lit_mask2', lit_mask1', big_mask3', big_mask2', big_mask1', Bool.false_eq_true, if_false, if_true, Nat.add_assoc, Nat.reduceAdd, Spec.hashKey, Spec.hashRegs, hashWord_false, hashWord_true, List.getD_cons_zero, List.getD_cons_succ, List.getD_nil, lkO_nil,
      BitVec.add_zero, BitVec.zero_add]
    try simp only [BitVec.add_comm, lk_left_comm, BitVec.add_assoc]
  | [o0, o1, o2, o3, o4, o5], h, _, hm =>
    simp only [List.length_cons, List.length_nil] at hm
    obtain ⟨t0, t1, rfl⟩ := two_oct (ts := ts) (by omega)
    simp only [RdAll, List.cons_append, List.nil_append, List.append_nil, Nat.add_assoc, Nat.reduceAdd] at h
    simp only [List.length_cons, List.length_nil, lkLitMaskSwitch, lkLitMask1, lkLitMask2, lkLitMask3, lkLitMask4, lkLitMask5, lkLitMask6, lkLitMask7, lkLitMask8, lkLitMask9, lkLitMask10, lkLitMask11, lkLitMask12, h,
      ok_bind, lkFinal_eq, lkMix_eq, lkO_shl0, lkO_zero, load32, load16, lit_word, big_word, half_word, half_shl0,
      lit_mask3', lit_mask2', lit_mask1', big_mask3', big_mask2', big_mask1', Bool.false_eq_true, if_false, if_true, Nat.add_assoc, Nat.reduceAdd, Spec.hashKey, Spec.hashRegs, hashWord_false, hashWord_true, List.getD_cons_zero, List.getD_cons_succ, List.getD_nil, lkO_nil,
      BitVec.add_zero, BitVec.zero_add]
    try simp only [BitVec.add_comm, lk_left_comm, BitVec.add_assoc]
  | [o0, o1, o2, o3, o4, o5, o6], h, _, hm =>
    simp only [List.length_cons, List.length_nil] at hm
    obtain ⟨t0, rfl⟩ := one_of (ts := ts) (by omega)
    simp only [RdAll, List.cons_append, List.nil_append, List.append_nil, Nat.add_assoc, Nat.reduceAdd] at h
    simp only [List.length_cons, List.length_nil, lkLitMaskSwitch, lkLitMask1, lkLitMask2, lkLitMask3, lkLitMask4, lkLitMask5, lkLitMask6, lkLitMask7, lkLitMask8, lkLitMask9, lkLitMask10, lkLitMask11, lkLitMask12, h,
      ok_bind, lkFinal_eq, lkMix_eq, lkO_shl0, lkO_zero, load32, load16, lit_word, big_word, half_word, half_shl0,
      lit_mask3', lit_mask2', lit_mask1', big_mask3', big_mask2', big_mask1', Bool.false_eq_true, if_false, if_true, Nat.add_assoc, Nat.reduceAdd, Spec.hashKey, Spec.hashRegs, hashWord_false, hashWord_true, List.getD_cons_zero, List.getD_cons_succ, List.getD_nil, lkO_nil,
      BitVec.add_zero, BitVec.zero_add]
    try simp only [BitVec.add_comm, lk_left_comm, BitVec.add_assoc]
  | [o0, o1, o2, o3, o4, o5, o6, o7], h, _, hm =>
    simp only [List.length_cons, List.length_nil] at hm
    obtain rfl := none_of (ts := ts) (by omega)
    simp only [RdAll, List.cons_append, List.nil_append, List.append_nil, Nat.add_assoc, Nat.reduceAdd] at h
    simp only [List.length_cons, List.length_nil, lkLitMaskSwitch, lkLitMask1, lkLitMask2, lkLitMask3, lkLitMask4, lkLitMask5, lkLitMask6, lkLitMask7, lkLitMask8, lkLitMask9, lkLitMask10, lkLitMask11, lkLitMask12, h,
      ok_bind, lkFinal_eq, lkMix_eq, lkO_shl0, lkO_zero, load32, load16, lit_word, big_word, half_word, half_shl0,
      lit_mask3', lit_mask2', lit_mask1', big_mask3', big_mask2', big_mask1', Bool.false_eq_true, if_false, if_true, Nat.add_assoc, Nat.reduceAdd, Spec.hashKey, Spec.hashRegs, hashWord_false, hashWord_true, List.getD_cons_zero, List.getD_cons_succ, List.getD_nil, lkO_nil,
      BitVec.add_zero, BitVec.zero_add]
    try simp only [BitVec.add_comm, lk_left_comm, BitVec.add_assoc]
  | [o0, o1, o2, o3, o4, o5, o6, o7, o8], h, _, hm =>
    simp only [List.length_cons, List.length_nil] at hm
    obtain ⟨t0, t1, t2, rfl⟩ := three_of (ts := ts) (by omega)
    simp only [RdAll, List.cons_append, List.nil_append, List.append_nil, Nat.add_assoc, Nat.reduceAdd] at h
    simp only [List.length_cons, List.length_nil, lkLitMaskSwitch, lkLitMask1, lkLitMask2, lkLitMask3, lkLitMask4, lkLitMask5, lkLitMask6, lkLitMask7, lkLitMask8, lkLitMask9, lkLitMask10, lkLitMask11, lkLitMask12, h,
      ok_bind, lkFinal_eq, lkMix_eq, lkO_shl0, lkO_zero, load32, load16, lit_word, big_word, half_word, half_shl0,
      lit_mask3', lit_mask2', lit_mask1', big_mask3', big_mask2', big_mask1', Bool.false_eq_true, if_false, if_true, Nat.add_assoc, Nat.reduceAdd, Spec.hashKey, Spec.hashRegs, hashWord_false, hashWord_true, List.getD_cons_zero, List.getD_cons_succ, List.getD_nil, lkO_nil,
      BitVec.add_zero, BitVec.zero_add]
    try simp only [BitVec.add_comm, lk_left_comm, BitVec.add_assoc]
  | [o0, o1, o2, o3, o4, o5, o6, o7, o8, o9], h, _, hm =>
    simp only [List.length_cons, List.length_nil] at hm
    obtain ⟨t0, t1, rfl⟩ := two_oct (ts := ts) (by omega)
    simp only [RdAll, List.cons_append, List.nil_append, List.append_nil, Nat.add_assoc, Nat.reduceAdd] at h
    simp only [List.length_cons, List.length_nil, lkLitMaskSwitch, lkLitMask1, lkLitMask2, lkLitMask3, lkLitMask4, lkLitMask5, lkLitMask6, lkLitMask7, lkLitMask8, lkLitMask9, lkLitMask10, lkLitMask11, lkLitMask12, h,
      ok_bind, lkFinal_eq, lkMix_eq, lkO_shl0, lkO_zero, load32, load16, lit_word, big_word, half_word, half_shl0,
      lit_mask3', lit_mask2', lit_mask1', big_mask3', big_mask2', big_mask1', Bool.false_eq_true, if_false, if_true, Nat.add_assoc, Nat.reduceAdd, Spec.hashKey, Spec.hashRegs, hashWord_false, hashWord_true, List.getD_cons_zero, List.getD_cons_succ, List.getD_nil, lkO_nil,
      BitVec.add_zero, BitVec.zero_add]
    try simp only [BitVec.add_comm, lk_left_comm, BitVec.add_assoc]
  | [o0, o1, o2, o3, o4, o5, o6, o7, o8, o9, o10], h, _, hm =>
    simp only [List.length_cons, List.length_nil] at hm
    obtain ⟨t0, rfl⟩ := one_of (ts := ts) (by omega)
    simp only [RdAll, List.cons_append, List.nil_append, List.append_nil, Nat.add_assoc, Nat.reduceAdd] at h
    simp only [List.length_cons, List.length_nil, lkLitMaskSwitch, lkLitMask1, lkLitMask2, lkLitMask3, lkLitMask4, lkLitMask5, lkLitMask6, lkLitMask7, lkLitMask8, lkLitMask9, lkLitMask10, lkLitMask11, lkLitMask12, h,
      ok_bind, lkFinal_eq, lkMix_eq, lkO_shl0, lkO_zero, load32, load16, lit_word, big_word, half_word, half_shl0,
      lit_mask3', lit_mask2', lit_mask1', big_mask3', big_mask2', big_mask1', Bool.false_eq_true, if_false, if_true, Nat.add_assoc, Nat.reduceAdd, Spec.hashKey, Spec.hashRegs, hashWord_false, hashWord_true, List.getD_cons_zero, List.getD_cons_succ, List.getD_nil, lkO_nil,
      BitVec.add_zero, BitVec.zero_add]
    try simp only [BitVec.add_comm, lk_left_comm, BitVec.add_assoc]
  | [o0, o1, o2, o3, o4, o5, o6, o7, o8, o9, o10, o11], h, _, hm =>
    simp only [List.length_cons, List.length_nil] at hm
    obtain rfl := none_of (ts := ts) (by omega)
    simp only [RdAll, List.cons_append, List.nil_append, List.append_nil, Nat.add_assoc, Nat.reduceAdd] at h
    simp only [List.length_cons, List.length_nil, lkLitMaskSwitch, lkLitMask1, lkLitMask2, lkLitMask3, lkLitMask4, lkLitMask5, lkLitMask6, lkLitMask7, lkLitMask8, lkLitMask9, lkLitMask10, lkLitMask11, lkLitMask12, h,
      ok_bind, lkFinal_eq, lkMix_eq, lkO_shl0, lkO_zero, load32, load16, lit_word, big_word, half_word, half_shl0,
      lit_mask3', lit_mask2', lit_mask1', big_mask3', big_mask2', big_mask1', Bool.false_eq_true, if_false, if_true, Nat.add_assoc, Nat.reduceAdd, Spec.hashKey, Spec.hashRegs, hashWord_false, hashWord_true, List.getD_cons_zero, List.getD_cons_succ, List.getD_nil, lkO_nil,
      BitVec.add_zero, BitVec.zero_add]
    try simp only [BitVec.add_comm, lk_left_comm, BitVec.add_assoc]
  | _ :: _ :: _ :: _ :: _ :: _ :: _ :: _ :: _ :: _ :: _ :: _ :: _ :: _, _, hn, _ => simp only [List.length_cons] at hn; omega

theorem litVal_switch {mem : List UInt8} {p : Nat} (s : Lk) : ∀ (os : List UInt8), RdAll mem p os → os.length ≤ 12 →
    lkLitValSwitch mem p os.length s = ok (Spec.hashRegs s (Spec.hashKey false os)) := by
  obtain ⟨a, b, c⟩ := s
  intro os h hn
  match os, h, hn with
  | [], _, _ => rfl
  | [o0], h, _ =>
    simp only [RdAll, List.cons_append, List.nil_append, List.append_nil, Nat.add_assoc, Nat.reduceAdd] at h
    simp only [List.length_cons, List.length_nil, lkLitValSwitch, lkLitVal1, lkLitVal2, lkLitVal3, lkLitVal4, lkLitVal5, lkLitVal6, lkLitVal7, lkLitVal8, lkLitVal9, lkLitVal10, lkLitVal11, lkLitVal12, h,
      ok_bind, lkFinal_eq, lkMix_eq, lkO_shl0, lkO_zero, load32, load16, lit_word, big_word, half_word, half_shl0,
      lit_mask3', lit_mask2', lit_mask1', big_mask3', big_mask2', big_mask1', Bool.false_eq_true, if_false, if_true, Nat.add_assoc, Nat.reduceAdd, Spec.hashKey, Spec.hashRegs, hashWord_false, hashWord_true, List.getD_cons_zero, List.getD_cons_succ, List.getD_nil, lkO_nil,
      BitVec.add_zero, BitVec.zero_add]
    try simp only [BitVec.add_comm, lk_left_comm, BitVec.add_assoc]
  | [o0, o1], h, _ =>
    simp only [RdAll, List.cons_append, List.nil_append, List.append_nil, Nat.add_assoc, Nat.reduceAdd] at h
    simp only [List.length_cons, List.length_nil, lkLitValSwitch, lkLitVal1, lkLitVal2, lkLitVal3, lkLitVal4, lkLitVal5, lkLitVal6, lkLitVal7, lkLitVal8, lkLitVal9, lkLitVal10, lkLitVal11, lkLitVal12, h,
      ok_bind, lkFinal_eq, lkMix_eq, lkO_shl0, lkO_zero, load32, load16, lit_word, big_word, half_word, half_shl0,
      lit_mask3', lit_mask2', lit_mask1', big_mask3', big_mask2', big_mask1', Bool.false_eq_true, if_false, if_true, Nat.add_assoc, Nat.reduceAdd, Spec.hashKey, Spec.hashRegs, hashWord_false, hashWord_true, List.getD_cons_zero, List.getD_cons_succ, List.getD_nil, lkO_nil,
      BitVec.add_zero, BitVec.zero_add]
    try simp only [BitVec.add_comm, lk_left_comm, BitVec.add_assoc]
  | [o0, o1, o2], h, _ =>
    simp only [RdAll, List.cons_append, List.nil_append, List.append_nil, Nat.add_assoc, Nat.reduceAdd] at h
    simp only [List.length_cons, List.length_nil, lkLitValSwitch, lkLitVal1, lkLitVal2, lkLitVal3, lkLitVal4, lkLitVal5, lkLitVal6, lkLitVal7, lkLitVal8, lkLitVal9, lkLitVal10, lkLitVal11, lkLitVal12, h,
      ok_bind, lkFinal_eq, lkMix_eq, lkO_shl0, lkO_zero, load32, load16, lit_word, big_word, half_word, half_shl0,
      lit_mask3', lit_mask2', lit_mask1', big_mask3', big_mask2', big_mask1', Bool.false_eq_true, if_false, if_true, Nat.add_assoc, Nat.reduceAdd, Spec.hashKey, Spec.hashRegs, hashWord_false, hashWord_true, List.getD_cons_zero, List.getD_cons_succ, List.getD_nil, lkO_nil,
      BitVec.add_zero, BitVec.zero_add]
    try simp only [BitVec.add_comm, lk_left_comm, BitVec.add_assoc]
  | [o0, o1, o2, o3], h, _ =>
    simp only [RdAll, List.cons_append, List.nil_append, List.append_nil, Nat.add_assoc, Nat.reduceAdd] at h
    simp only [List.length_cons, List.length_nil, lkLitValSwitch, lkLitVal1, lkLitVal2, lkLitVal3, lkLitVal4, lkLitVal5, lkLitVal6, lkLitVal7, lkLitVal8, lkLitVal9, lkLitVal10, lkLitVal11, lkLitVal12, h,
      ok_bind, lkFinal_eq, lkMix_eq, lkO_shl0, lkO_zero, load32, load16, lit_word, big_word, half_word, half_shl0,
      lit_mask3', lit_mask2', lit_mask1', big_mask3', big_mask2', big_mask1', Bool.false_eq_true, if_false, if_true, Nat.add_assoc, Nat.reduceAdd, Spec.hashKey, Spec.hashRegs, hashWord_false, hashWord_true, List.getD_cons_zero, List.getD_cons_succ, List.getD_nil, lkO_nil,
      BitVec.add_zero, BitVec.zero_add]
    try simp only [BitVec.add_comm, lk_left_comm, BitVec.add_assoc]
  | [o0, o1, o2, o3, o4], h, _ =>
    simp only [RdAll, List.cons_append, List.nil_append, List.append_nil, Nat.add_assoc, Nat.reduceAdd] at h
    simp only [List.length_cons, List.length_nil, lkLitValSwitch, lkLitVal1, lkLitVal2, lkLitVal3, lkLitVal4, lkLitVal5, lkLitVal6, lkLitVal7, lkLitVal8, lkLitVal9, lkLitVal10, lkLitVal11, lkLitVal12, h,
      ok_bind, lkFinal_eq, lkMix_eq, lkO_shl0, lkO_zero, load32, load16, lit_word, big_word, half_word, half_shl0,
      lit_mask3', lit_mask2', lit_mask1', big_mask3', big_mask2', big_mask1', Bool.false_eq_true, if_false, if_true, Nat.add_assoc, Nat.reduceAdd, Spec.hashKey, Spec.hashRegs, hashWord_false, hashWord_true, List.getD_cons_zero, List.getD_cons_succ, List.getD_nil, lkO_nil,
      BitVec.add_zero, BitVec.zero_add]
    try simp only [BitVec.add_comm, lk_left_comm, BitVec.add_assoc]
  | [o0, o1, o2, o3, o4, o5], h, _ =>
    simp only [RdAll, List.cons_append, List.nil_append, List.append_nil, Nat.add_assoc, Nat.reduceAdd] at h
    simp only [List.length_cons, List.length_nil, lkLitValSwitch, lkLitVal1, lkLitVal2, lkLitVal3, lkLitVal4, lkLitVal5, lkLitVal6, lkLitVal7, lkLitVal8, lkLitVal9, lkLitVal10, lkLitVal11, lkLitVal12, h,
      ok_bind, lkFinal_eq, lkMix_eq, lkO_shl0, lkO_zero, load32, load16, lit_word, big_word, half_word, half_shl0,
      lit_mask3', lit_mask2', lit_mask1', big_mask3', big_mask2', big_mask1', Bool.false_eq_true, if_false, if_true, Nat.add_assoc, Nat.reduceAdd, Spec.hashKey, Spec.hashRegs, hashWord_false, hashWord_true, List.getD_cons_zero, List.getD_cons_succ, List.getD_nil, lkO_nil,
      BitVec.add_zero, BitVec.zero_add]
    try simp only [BitVec.add_comm, lk_left_comm, BitVec.add_assoc]
  | [o0, o1, o2, o3, o4, o5, o6], h, _ =>
    simp only [RdAll, List.cons_append, List.nil_append, List.append_nil, Nat.add_assoc, Nat.reduceAdd] at h
    simp only [List.length_cons, List.length_nil, lkLitValSwitch, lkLitVal1, lkLitVal2, lkLitVal3, lkLitVal4, lkLitVal5, lkLitVal6, lkLitVal7, lkLitVal8, lkLitVal9, lkLitVal10, lkLitVal11, lkLitVal12, h,
      ok_bind, lkFinal_eq, lkMix_eq, lkO_shl0, lkO_zero, load32, load16, lit_word, big_word, half_word, half_shl0,
      lit_mask3', lit_mask2', lit_mask1', big_mask3', big_mask2', big_mask1', Bool.false_eq_true, if_false, if_true, Nat.add_assoc, Nat.reduceAdd, Spec.hashKey, Spec.hashRegs, hashWord_false, hashWord_true, List.getD_cons_zero, List.getD_cons_succ, List.getD_nil, lkO_nil,
      BitVec.add_zero, BitVec.zero_add]
    try simp only [BitVec.add_comm, lk_left_comm, BitVec.add_assoc]
  | [o0, o1, o2, o3, o4, o5, o6, o7], h, _ =>
    simp only [RdAll, List.cons_append, List.nil_append, List.append_nil, Nat.add_assoc, Nat.reduceAdd] at h
    simp only [List.length_cons, List.length_nil, lkLitValSwitch, lkLitVal1, lkLitVal2, lkLitVal3, lkLitVal4, lkLitVal5, lkLitVal6, lkLitVal7, lkLitVal8, lkLitVal9, lkLitVal10, lkLitVal11, lkLitVal12, h,
      ok_bind, lkFinal_eq, lkMix_eq, lkO_shl0, lkO_zero, load32, load16, lit_word, big_word, half_word, half_shl0,
      lit_mask3', lit_mask2', lit_mask1', big_mask3', big_mask2', big_mask1', Bool.false_eq_true, if_false, if_true, Nat.add_assoc, Nat.reduceAdd, Spec.hashKey, Spec.hashRegs, hashWord_false, hashWord_true, List.getD_cons_zero, List.getD_cons_succ, List.getD_nil, lkO_nil,
      BitVec.add_zero, BitVec.zero_add]
    try simp only [BitVec.add_comm, lk_left_comm, BitVec.add_assoc]
  | [o0, o1, o2, o3, o4, o5, o6, o7, o8], h, _ =>
    simp only [RdAll, List.cons_append, List.nil_append, List.append_nil, Nat.add_assoc, Nat.reduceAdd] at h
    simp only [List.length_cons, List.length_nil, lkLitValSwitch, lkLitVal1, lkLitVal2, lkLitVal3, lkLitVal4, lkLitVal5, lkLitVal6, lkLitVal7, lkLitVal8, lkLitVal9, lkLitVal10, lkLitVal11, lkLitVal12, h,
      ok_bind, lkFinal_eq, lkMix_eq, lkO_shl0, lkO_zero, load32, load16, lit_word, big_word, half_word, half_shl0,
      lit_mask3', lit_mask2', lit_mask1', big_mask3', big_mask2', big_mask1', Bool.false_eq_true, if_false, if_true, Nat.add_assoc, Nat.reduceAdd, Spec.hashKey, Spec.hashRegs, hashWord_false, hashWord_true, List.getD_cons_zero, List.getD_cons_succ, List.getD_nil, lkO_nil,
      BitVec.add_zero, BitVec.zero_add]
    try simp only [BitVec.add_comm, lk_left_comm, BitVec.add_assoc]
  | [o0, o1, o2, o3, o4, o5, o6, o7, o8, o9], h, _ =>
    simp only [RdAll, List.cons_append, List.nil_append, List.append_nil, Nat.add_assoc, Nat.reduceAdd] at h
    simp only [List.length_cons, List.length_nil, lkLitValSwitch, lkLitVal1, lkLitVal2, lkLitVal3, lkLitVal4, lkLitVal5, lkLitVal6, lkLitVal7, lkLitVal8, lkLitVal9, lkLitVal10, lkLitVal11, lkLitVal12, h,
      ok_bind, lkFinal_eq, lkMix_eq, lkO_shl0, lkO_zero, load32, load16, lit_word, big_word, half_word, half_shl0,
      lit_mask3', lit_mask2', lit_mask1', big_mask3', big_mask2', big_mask1', Bool.false_eq_true, if_false, if_true, Nat.add_assoc, Nat.reduceAdd, Spec.hashKey, Spec.hashRegs, hashWord_false, hashWord_true, List.getD_cons_zero, List.getD_cons_succ, List.getD_nil, lkO_nil,
      BitVec.add_zero, BitVec.zero_add]
    try simp only [BitVec.add_comm, lk_left_comm, BitVec.add_assoc]
  | [o0, o1, o2, o3, o4, o5, o6, o7, o8, o9, o10], h, _ =>
    simp only [RdAll, List.cons_append, List.nil_append, List.append_nil, Nat.add_assoc, Nat.reduceAdd] at h
    simp only [List.length_cons, List.length_nil, lkLitValSwitch, lkLitVal1, lkLitVal2, lkLitVal3, lkLitVal4, lkLitVal5, lkLitVal6, lkLitVal7, lkLitVal8, lkLitVal9, lkLitVal10, lkLitVal11, lkLitVal12, h,
      ok_bind, lkFinal_eq, lkMix_eq, lkO_shl0, lkO_zero, load32, load16, lit_word, big_word, half_word, half_shl0,
      lit_mask3', lit_mask2', lit_mask1', big_mask3', big_mask2', big_mask1', Bool.false_eq_true, if_false, if_true, Nat.add_assoc, Nat.reduceAdd, Spec.hashKey, Spec.hashRegs, hashWord_false, hashWord_true, List.getD_cons_zero, List.getD_cons_succ, List.getD_nil, lkO_nil,
      BitVec.add_zero, BitVec.zero_add]
    try simp only [BitVec.add_comm, lk_left_comm, BitVec.add_assoc]
  | [o0, o1, o2, o3, o4, o5, o6, o7, o8, o9, o10, o11], h, _ =>
    simp only [RdAll, List.cons_append, List.nil_append, List.append_nil, Nat.add_assoc, Nat.reduceAdd] at h
    simp only [List.length_cons, List.length_nil, lkLitValSwitch, lkLitVal1, lkLitVal2, lkLitVal3, lkLitVal4, lkLitVal5, lkLitVal6, lkLitVal7, lkLitVal8, lkLitVal9, lkLitVal10, lkLitVal11, lkLitVal12, h,
      ok_bind, lkFinal_eq, lkMix_eq, lkO_shl0, lkO_zero, load32, load16, lit_word, big_word, half_word, half_shl0,
      lit_mask3', lit_mask2', lit_mask1', big_mask3', big_mask2', big_mask1', Bool.false_eq_true, if_false, if_true, Nat.add_assoc, Nat.reduceAdd, Spec.hashKey, Spec.hashRegs, hashWord_false, hashWord_true, List.getD_cons_zero, List.getD_cons_succ, List.getD_nil, lkO_nil,
      BitVec.add_zero, BitVec.zero_add]
    try simp only [BitVec.add_comm, lk_left_comm, BitVec.add_assoc]
  | _ :: _ :: _ :: _ :: _ :: _ :: _ :: _ :: _ :: _ :: _ :: _ :: _ :: _, _, hn => simp only [List.length_cons] at hn; omega

theorem half_switch {mem : List UInt8} {p : Nat} (s : Lk) : ∀ (os : List UInt8), RdAll mem p os → os.length ≤ 12 →
    lkHalfSwitch mem p os.length s = ok (Spec.hashRegs s (Spec.hashKey false os)) := by
  obtain ⟨a, b, c⟩ := s
  intro os h hn
  match os, h, hn with
  | [], _, _ => rfl
  | [o0], h, _ =>
    simp only [RdAll, List.cons_append, List.nil_append, List.append_nil, Nat.add_assoc, Nat.reduceAdd] at h
    simp only [List.length_cons, List.length_nil, lkHalfSwitch, lkHalf1, lkHalf2, lkHalf3, lkHalf4, lkHalf5, lkHalf6, lkHalf7, lkHalf8, lkHalf9, lkHalf10, lkHalf11, lkHalf12, h,
      ok_bind, lkFinal_eq, lkMix_eq, lkO_shl0, lkO_zero, load32, load16, lit_word, big_word, half_word, half_shl0,
      lit_mask3', lit_mask2', lit_mask1', big_mask3', big_mask2', big_mask1', Bool.false_eq_true, if_false, if_true, Nat.add_assoc, Nat.reduceAdd, Spec.hashKey, Spec.hashRegs, hashWord_false, hashWord_true, List.getD_cons_zero, List.getD_cons_succ, List.getD_nil, lkO_nil,
      BitVec.add_zero, BitVec.zero_add]
    try simp only [BitVec.add_comm, lk_left_comm, BitVec.add_assoc]
  | [o0, o1], h, _ =>
    simp only [RdAll, List.cons_append, List.nil_append, List.append_nil, Nat.add_assoc, Nat.reduceAdd] at h
    simp only [List.length_cons, List.length_nil, lkHalfSwitch, lkHalf1, lkHalf2, lkHalf3, lkHalf4, lkHalf5, lkHalf6, lkHalf7, lkHalf8, lkHalf9, lkHalf10, lkHalf11, lkHalf12, h,
      ok_bind, lkFinal_eq, lkMix_eq, lkO_shl0, lkO_zero, load32, load16, lit_word, big_word, half_word, half_shl0,
      lit_mask3', lit_mask2', lit_mask1', big_mask3', big_mask2', big_mask1', Bool.false_eq_true, if_false, if_true, Nat.add_assoc, Nat.reduceAdd, Spec.hashKey, Spec.hashRegs, hashWord_false, hashWord_true, List.getD_cons_zero, List.getD_cons_succ, List.getD_nil, lkO_nil,
      BitVec.add_zero, BitVec.zero_add]
    try simp only [BitVec.add_comm, lk_left_comm, BitVec.add_assoc]
  | [o0, o1, o2], h, _ =>
    simp only [RdAll, List.cons_append, List.nil_append, List.append_nil, Nat.add_assoc, Nat.reduceAdd] at h
    simp only [List.length_cons, List.length_nil, lkHalfSwitch, lkHalf1, lkHalf2, lkHalf3, lkHalf4, lkHalf5, lkHalf6, lkHalf7, lkHalf8, lkHalf9, lkHalf10, lkHalf11, lkHalf12, h,
      ok_bind, lkFinal_eq, lkMix_eq, lkO_shl0, lkO_zero, load32, load16, lit_word, big_word, half_word, half_shl0,
      lit_mask3', lit_mask2', lit_mask1', big_mask3', big_mask2', big_mask1', Bool.false_eq_true, if_false, if_true, Nat.add_assoc, Nat.reduceAdd, Spec.hashKey, Spec.hashRegs, hashWord_false, hashWord_true, List.getD_cons_zero, List.getD_cons_succ, List.getD_nil, lkO_nil,
      BitVec.add_zero, BitVec.zero_add]
    try simp only [BitVec.add_comm, lk_left_comm, BitVec.add_assoc]
  | [o0, o1, o2, o3], h, _ =>
    simp only [RdAll, List.cons_append, List.nil_append, List.append_nil, Nat.add_assoc, Nat.reduceAdd] at h
    simp only [List.length_cons, List.length_nil, lkHalfSwitch, lkHalf1, lkHalf2, lkHalf3, lkHalf4, lkHalf5, lkHalf6, lkHalf7, lkHalf8, lkHalf9, lkHalf10, lkHalf11, lkHalf12, h,
      ok_bind, lkFinal_eq, lkMix_eq, lkO_shl0, lkO_zero, load32, load16, lit_word, big_word, half_word, half_shl0,
      lit_mask3', lit_mask2', lit_mask1', big_mask3', big_mask2', big_mask1', Bool.false_eq_true, if_false, if_true, Nat.add_assoc, Nat.reduceAdd, Spec.hashKey, Spec.hashRegs, hashWord_false, hashWord_true, List.getD_cons_zero, List.getD_cons_succ, List.getD_nil, lkO_nil,
      BitVec.add_zero, BitVec.zero_add]
    try simp only [BitVec.add_comm, lk_left_comm, BitVec.add_assoc]
  | [o0, o1, o2, o3, o4], h, _ =>
    simp only [RdAll, List.cons_append, List.nil_append, List.append_nil, Nat.add_assoc, Nat.reduceAdd] at h
    simp only [List.length_cons, List.length_nil, lkHalfSwitch, lkHalf1, lkHalf2, lkHalf3, lkHalf4, lkHalf5, lkHalf6, lkHalf7, lkHalf8, lkHalf9, lkHalf10, lkHalf11, lkHalf12, h,
      ok_bind, lkFinal_eq, lkMix_eq, lkO_shl0, lkO_zero, load32, load16, lit_word, big_word, half_word, half_shl0,
      lit_mask3', lit_mask2', lit_mask1', big_mask3', big_mask2', big_mask1', Bool.false_eq_true, if_false, if_true, Nat.add_assoc, Nat.reduceAdd, Spec.hashKey, Spec.hashRegs, hashWord_false, hashWord_true, List.getD_cons_zero, List.getD_cons_succ, List.getD_nil, lkO_nil,
      BitVec.add_zero, BitVec.zero_add]
    try simp only [BitVec.add_comm, lk_left_comm, BitVec.add_assoc]
  | [o0, o1, o2, o3, o4, o5], h, _ =>
    simp only [RdAll, List.cons_append, List.nil_append, List.append_nil, Nat.add_assoc, Nat.reduceAdd] at h
    simp only [List.length_cons, List.length_nil, lkHalfSwitch, lkHalf1, lkHalf2, lkHalf3, lkHalf4, lkHalf5, lkHalf6, lkHalf7, lkHalf8, lkHalf9, lkHalf10, lkHalf11, lkHalf12, h,
      ok_bind, lkFinal_eq, lkMix_eq, lkO_shl0, lkO_zero, load32, load16, lit_word, big_word, half_word, half_shl0,
      lit_mask3', lit_mask2', lit_mask1', big_mask3', big_mask2', big_mask1', Bool.false_eq_true, if_false, if_true, Nat.add_assoc, Nat.reduceAdd, Spec.hashKey, Spec.hashRegs, hashWord_false, hashWord_true, List.getD_cons_zero, List.getD_cons_succ, List.getD_nil, lkO_nil,
      BitVec.add_zero, BitVec.zero_add]
    try simp only [BitVec.add_comm, lk_left_comm, BitVec.add_assoc]
  | [o0, o1, o2, o3, o4, o5, o6], h, _ =>
    simp only [RdAll, List.cons_append, List.nil_append, List.append_nil, Nat.add_assoc, Nat.reduceAdd] at h
    simp only [List.length_cons, List.length_nil, lkHalfSwitch, lkHalf1, lkHalf2, lkHalf3, lkHalf4, lkHalf5, lkHalf6, lkHalf7, lkHalf8, lkHalf9, lkHalf10, lkHalf11, lkHalf12, h,
      ok_bind, lkFinal_eq, lkMix_eq, lkO_shl0, lkO_zero, load32, load16, lit_word, big_word, half_word, half_shl0,
      lit_mask3', lit_mask2', lit_mask1', big_mask3', big_mask2', big_mask1', Bool.false_eq_true, if_false, if_true, Nat.add_assoc, Nat.reduceAdd, Spec.hashKey, Spec.hashRegs, hashWord_false, hashWord_true, List.getD_cons_zero, List.getD_cons_succ, List.getD_nil, lkO_nil,
      BitVec.add_zero, BitVec.zero_add]
    try simp only [BitVec.add_comm, lk_left_comm, BitVec.add_assoc]
  | [o0, o1, o2, o3, o4, o5, o6, o7], h, _ =>
    simp only [RdAll, List.cons_append, List.nil_append, List.append_nil, Nat.add_assoc, Nat.reduceAdd] at h
    simp only [List.length_cons, List.length_nil, lkHalfSwitch, lkHalf1, lkHalf2, lkHalf3, lkHalf4, lkHalf5, lkHalf6, lkHalf7, lkHalf8, lkHalf9, lkHalf10, lkHalf11, lkHalf12, h,
      ok_bind, lkFinal_eq, lkMix_eq, lkO_shl0, lkO_zero, load32, load16, lit_word, big_word, half_word, half_shl0,
      lit_mask3', lit_mask2', lit_mask1', big_mask3', big_mask2', big_mask1', Bool.false_eq_true, if_false, if_true, Nat.add_assoc, Nat.reduceAdd, Spec.hashKey, Spec.hashRegs, hashWord_false, hashWord_true, List.getD_cons_zero, List.getD_cons_succ, List.getD_nil, lkO_nil,
      BitVec.add_zero, BitVec.zero_add]
    try simp only [BitVec.add_comm, lk_left_comm, BitVec.add_assoc]
  | [o0, o1, o2, o3, o4, o5, o6, o7, o8], h, _ =>
    simp only [RdAll, List.cons_append, List.nil_append, List.append_nil, Nat.add_assoc, Nat.reduceAdd] at h
    simp only [List.length_cons, List.length_nil, lkHalfSwitch, lkHalf1, lkHalf2, lkHalf3, lkHalf4, lkHalf5, lkHalf6, lkHalf7, lkHalf8, lkHalf9, lkHalf10, lkHalf11, lkHalf12, h,
      ok_bind, lkFinal_eq, lkMix_eq, lkO_shl0, lkO_zero, load32, load16, lit_word, big_word, half_word, half_shl0,
      lit_mask3', lit_mask2', lit_mask1', big_mask3', big_mask2', big_mask1', Bool.false_eq_true, if_false, if_true, Nat.add_assoc, Nat.reduceAdd, Spec.hashKey, Spec.hashRegs, hashWord_false, hashWord_true, List.getD_cons_zero, List.getD_cons_succ, List.getD_nil, lkO_nil,
      BitVec.add_zero, BitVec.zero_add]
    try simp only [BitVec.add_comm, lk_left_comm, BitVec.add_assoc]
  | [o0, o1, o2, o3, o4, o5, o6, o7, o8, o9], h, _ =>
    simp only [RdAll, List.cons_append, List.nil_append, List.append_nil, Nat.add_assoc, Nat.reduceAdd] at h
    simp only [List.length_cons, List.length_nil, lkHalfSwitch, lkHalf1, lkHalf2, lkHalf3, lkHalf4, lkHalf5, lkHalf6, lkHalf7, lkHalf8, lkHalf9, lkHalf10, lkHalf11, lkHalf12, h,
      ok_bind, lkFinal_eq, lkMix_eq, lkO_shl0, lkO_zero, load32, load16, lit_word, big_word, half_word, half_shl0,
      lit_mask3', lit_mask2', lit_mask1', big_mask3', big_mask2', big_mask1', Bool.false_eq_true, if_false, if_true, Nat.add_assoc, Nat.reduceAdd, Spec.hashKey, Spec.hashRegs, hashWord_false, hashWord_true, List.getD_cons_zero, List.getD_cons_succ, List.getD_nil, lkO_nil,
      BitVec.add_zero, BitVec.zero_add]
    try simp only [BitVec.add_comm, lk_left_comm, BitVec.add_assoc]
  | [o0, o1, o2, o3, o4, o5, o6, o7, o8, o9, o10], h, _ =>
    simp only [RdAll, List.cons_append, List.nil_append, List.append_nil, Nat.add_assoc, Nat.reduceAdd] at h
    simp only [List.length_cons, List.length_nil, lkHalfSwitch, lkHalf1, lkHalf2, lkHalf3, lkHalf4, lkHalf5, lkHalf6, lkHalf7, lkHalf8, lkHalf9, lkHalf10, lkHalf11, lkHalf12, h,
      ok_bind, lkFinal_eq, lkMix_eq, lkO_shl0, lkO_zero, load32, load16, lit_word, big_word, half_word, half_shl0,
      lit_mask3', lit_mask2', lit_mask1', big_mask3', big_mask2', big_mask1', Bool.false_eq_true, if_false, if_true, Nat.add_assoc, Nat.reduceAdd, Spec.hashKey, Spec.hashRegs, hashWord_false, hashWord_true, List.getD_cons_zero, List.getD_cons_succ, List.getD_nil, lkO_nil,
      BitVec.add_zero, BitVec.zero_add]
    try simp only [BitVec.add_comm, lk_left_comm, BitVec.add_assoc]
  | [o0, o1, o2, o3, o4, o5, o6, o7, o8, o9, o10, o11], h, _ =>
    simp only [RdAll, List.cons_append, List.nil_append, List.append_nil, Nat.add_assoc, Nat.reduceAdd] at h
    simp only [List.length_cons, List.length_nil, lkHalfSwitch, lkHalf1, lkHalf2, lkHalf3, lkHalf4, lkHalf5, lkHalf6, lkHalf7, lkHalf8, lkHalf9, lkHalf10, lkHalf11, lkHalf12, h,
      ok_bind, lkFinal_eq, lkMix_eq, lkO_shl0, lkO_zero, load32, load16, lit_word, big_word, half_word, half_shl0,
      lit_mask3', lit_mask2', lit_mask1', big_mask3', big_mask2', big_mask1', Bool.false_eq_true, if_false, if_true, Nat.add_assoc, Nat.reduceAdd, Spec.hashKey, Spec.hashRegs, hashWord_false, hashWord_true, List.getD_cons_zero, List.getD_cons_succ, List.getD_nil, lkO_nil,
      BitVec.add_zero, BitVec.zero_add]
    try simp only [BitVec.add_comm, lk_left_comm, BitVec.add_assoc]
  | _ :: _ :: _ :: _ :: _ :: _ :: _ :: _ :: _ :: _ :: _ :: _ :: _ :: _, _, hn => simp only [List.length_cons] at hn; omega

theorem litByte_switch {mem : List UInt8} {p : Nat} (s : Lk) : ∀ (os : List UInt8), RdAll mem p os → os.length ≤ 12 →
    lkLitByteSwitch mem p os.length s = ok (Spec.hashRegs s (Spec.hashKey false os)) := by
  obtain ⟨a, b, c⟩ := s
  intro os h hn
  match os, h, hn with
  | [], _, _ => rfl
  | [o0], h, _ =>
    simp only [RdAll, List.cons_append, List.nil_append, List.append_nil, Nat.add_assoc, Nat.reduceAdd] at h
    simp only [List.length_cons, List.length_nil, lkLitByteSwitch, lkLitByte1, lkLitByte2, lkLitByte3, lkLitByte4, lkLitByte5, lkLitByte6, lkLitByte7, lkLitByte8, lkLitByte9, lkLitByte10, lkLitByte11, lkLitByte12, h,
      ok_bind, lkFinal_eq, lkMix_eq, lkO_shl0, lkO_zero, load32, load16, lit_word, big_word, half_word, half_shl0,
      lit_mask3', lit_mask2', lit_mask1', big_mask3', big_mask2', big_mask1', Bool.false_eq_true, if_false, if_true, Nat.add_assoc, Nat.reduceAdd, Spec.hashKey, Spec.hashRegs, hashWord_false, hashWord_true, List.getD_cons_zero, List.getD_cons_succ, List.getD_nil, lkO_nil,
      BitVec.add_zero, BitVec.zero_add]
    try simp only [BitVec.add_comm, lk_left_comm, BitVec.add_assoc]
  | [o0, o1], h, _ =>
    simp only [RdAll, List.cons_append, List.nil_append, List.append_nil, Nat.add_assoc, Nat.reduceAdd] at h
    simp only [List.length_cons, List.length_nil, lkLitByteSwitch, lkLitByte1, lkLitByte2, lkLitByte3, lkLitByte4, lkLitByte5, lkLitByte6, lkLitByte7, lkLitByte8, lkLitByte9, lkLitByte10, lkLitByte11, lkLitByte12, h,
      ok_bind, lkFinal_eq, lkMix_eq, lkO_shl0, lkO_zero, load32, load16, lit_word, big_word, half_word, half_shl0,
      lit_mask3', lit_mask2', lit_mask1', big_mask3', big_mask2', big_mask1', Bool.false_eq_true, if_false, if_true, Nat.add_assoc, Nat.reduceAdd, Spec.hashKey, Spec.hashRegs, hashWord_false, hashWord_true, List.getD_cons_zero, List.getD_cons_succ, List.getD_nil, lkO_nil,
      BitVec.add_zero, BitVec.zero_add]
    try simp only [BitVec.add_comm, lk_left_comm, BitVec.add_assoc]
  | [o0, o1, o2], h, _ =>
    simp only [RdAll, List.cons_append, List.nil_append, List.append_nil, Nat.add_assoc, Nat.reduceAdd] at h
    simp only [List.length_cons, List.length_nil, lkLitByteSwitch, lkLitByte1, lkLitByte2, lkLitByte3, lkLitByte4, lkLitByte5, lkLitByte6, lkLitByte7, lkLitByte8, lkLitByte9, lkLitByte10, lkLitByte11, lkLitByte12, h,
      ok_bind, lkFinal_eq, lkMix_eq, lkO_shl0, lkO_zero, load32, load16, lit_word, big_word, half_word, half_shl0,
      lit_mask3', lit_mask2', lit_mask1', big_mask3', big_mask2', big_mask1', Bool.false_eq_true, if_false, if_true, Nat.add_assoc, Nat.reduceAdd, Spec.hashKey, Spec.hashRegs, hashWord_false, hashWord_true, List.getD_cons_zero, List.getD_cons_succ, List.getD_nil, lkO_nil,
      BitVec.add_zero, BitVec.zero_add]
    try simp only [BitVec.add_comm, lk_left_comm, BitVec.add_assoc]
  | [o0, o1, o2, o3], h, _ =>
    simp only [RdAll, List.cons_append, List.nil_append, List.append_nil, Nat.add_assoc, Nat.reduceAdd] at h
    simp only [List.length_cons, List.length_nil, lkLitByteSwitch, lkLitByte1, lkLitByte2, lkLitByte3, lkLitByte4, lkLitByte5, lkLitByte6, lkLitByte7, lkLitByte8, lkLitByte9, lkLitByte10, lkLitByte11, lkLitByte12, h,
      ok_bind, lkFinal_eq, lkMix_eq, lkO_shl0, lkO_zero, load32, load16, lit_word, big_word, half_word, half_shl0,
      lit_mask3', lit_mask2', lit_mask1', big_mask3', big_mask2', big_mask1', Bool.false_eq_true, if_false, if_true, Nat.add_assoc, Nat.reduceAdd, Spec.hashKey, Spec.hashRegs, hashWord_false, hashWord_true, List.getD_cons_zero, List.getD_cons_succ, List.getD_nil, lkO_nil,
      BitVec.add_zero, BitVec.zero_add]
    try simp only [BitVec.add_comm, lk_left_comm, BitVec.add_assoc]
  | [o0, o1, o2, o3, o4], h, _ =>
    simp only [RdAll, List.cons_append, List.nil_append, List.append_nil, Nat.add_assoc, Nat.reduceAdd] at h
    simp only [List.length_cons, List.length_nil, lkLitByteSwitch, lkLitByte1, lkLitByte2, lkLitByte3, lkLitByte4, lkLitByte5, lkLitByte6, lkLitByte7, lkLitByte8, lkLitByte9, lkLitByte10, lkLitByte11, lkLitByte12, h,
      ok_bind, lkFinal_eq, lkMix_eq, lkO_shl0, lkO_zero, load32, load16, lit_word, big_word, half_word, half_shl0,
      lit_mask3', lit_mask2', lit_mask1', big_mask3', big_mask2', big_mask1', Bool.false_eq_true, if_false, if_true, Nat.add_assoc, Nat.reduceAdd, Spec.hashKey, Spec.hashRegs, hashWord_false, hashWord_true, List.getD_cons_zero, List.getD_cons_succ, List.getD_nil, lkO_nil,
      BitVec.add_zero, BitVec.zero_add]
    try simp only [BitVec.add_comm, lk_left_comm, BitVec.add_assoc]
  | [o0, o1, o2, o3, o4, o5], h, _ =>
    simp only [RdAll, List.cons_append, List.nil_append, List.append_nil, Nat.add_assoc, Nat.reduceAdd] at h
    simp only [List.length_cons, List.length_nil, lkLitByteSwitch, lkLitByte1, lkLitByte2, lkLitByte3, lkLitByte4, lkLitByte5, lkLitByte6, lkLitByte7, lkLitByte8, lkLitByte9, lkLitByte10, lkLitByte11, lkLitByte12, h,
      ok_bind, lkFinal_eq, lkMix_eq, lkO_shl0, lkO_zero, load32, load16, lit_word, big_word, half_word, half_shl0,
      lit_mask3', lit_mask2', lit_mask1', big_mask3', big_mask2', big_mask1', Bool.false_eq_true, if_false, if_true, Nat.add_assoc, Nat.reduceAdd, Spec.hashKey, Spec.hashRegs, hashWord_false, hashWord_true, List.getD_cons_zero, List.getD_cons_succ, List.getD_nil, lkO_nil,
      BitVec.add_zero, BitVec.zero_add]
    try simp only [BitVec.add_comm, lk_left_comm, BitVec.add_assoc]
  | [o0, o1, o2, o3, o4, o5, o6], h, _ =>
    simp only [RdAll, List.cons_append, List.nil_append, List.append_nil, Nat.add_assoc, Nat.reduceAdd] at h
    simp only [List.length_cons, List.length_nil, lkLitByteSwitch, lkLitByte1, lkLitByte2, lkLitByte3, lkLitByte4, lkLitByte5, lkLitByte6, lkLitByte7, lkLitByte8, lkLitByte9, lkLitByte10, lkLitByte11, lkLitByte12, h,
      ok_bind, lkFinal_eq, lkMix_eq, lkO_shl0, lkO_zero, load32, load16, lit_word, big_word, half_word, half_shl0,
      lit_mask3', lit_mask2', lit_mask1', big_mask3', big_mask2', big_mask1', Bool.false_eq_true, if_false, if_true, Nat.add_assoc, Nat.reduceAdd, Spec.hashKey, Spec.hashRegs, hashWord_false, hashWord_true, List.getD_cons_zero, List.getD_cons_succ, List.getD_nil, lkO_nil,
      BitVec.add_zero, BitVec.zero_add]
    try simp only [BitVec.add_comm, lk_left_comm, BitVec.add_assoc]
  | [o0, o1, o2, o3, o4, o5, o6, o7], h, _ =>
    simp only [RdAll, List.cons_append, List.nil_append, List.append_nil, Nat.add_assoc, Nat.reduceAdd] at h
    simp only [List.length_cons, List.length_nil, lkLitByteSwitch, lkLitByte1, lkLitByte2, lkLitByte3, lkLitByte4, lkLitByte5, lkLitByte6, lkLitByte7, lkLitByte8, lkLitByte9, lkLitByte10, lkLitByte11, lkLitByte12, h,
      ok_bind, lkFinal_eq, lkMix_eq, lkO_shl0, lkO_zero, load32, load16, lit_word, big_word, half_word, half_shl0,
      lit_mask3', lit_mask2', lit_mask1', big_mask3', big_mask2', big_mask1', Bool.false_eq_true, if_false, if_true, Nat.add_assoc, Nat.reduceAdd, Spec.hashKey, Spec.hashRegs, hashWord_false, hashWord_true, List.getD_cons_zero, List.getD_cons_succ, List.getD_nil, lkO_nil,
      BitVec.add_zero, BitVec.zero_add]
    try simp only [BitVec.add_comm, lk_left_comm, BitVec.add_assoc]
  | [o0, o1, o2, o3, o4, o5, o6, o7, o8], h, _ =>
    simp only [RdAll, List.cons_append, List.nil_append, List.append_nil, Nat.add_assoc, Nat.reduceAdd] at h
    simp only [List.length_cons, List.length_nil, lkLitByteSwitch, lkLitByte1, lkLitByte2, lkLitByte3, lkLitByte4, lkLitByte5, lkLitByte6, lkLitByte7, lkLitByte8, lkLitByte9, lkLitByte10, lkLitByte11, lkLitByte12, h,
      ok_bind, lkFinal_eq, lkMix_eq, lkO_shl0, lkO_zero, load32, load16, lit_word, big_word, half_word, half_shl0,
      lit_mask3', lit_mask2', lit_mask1', big_mask3', big_mask2', big_mask1', Bool.false_eq_true, if_false, if_true, Nat.add_assoc, Nat.reduceAdd, Spec.hashKey, Spec.hashRegs, hashWord_false, hashWord_true, List.getD_cons_zero, List.getD_cons_succ, List.getD_nil, lkO_nil,
      BitVec.add_zero, BitVec.zero_add]
    try simp only [BitVec.add_comm, lk_left_comm, BitVec.add_assoc]
  | [o0, o1, o2, o3, o4, o5, o6, o7, o8, o9], h, _ =>
    simp only [RdAll, List.cons_append, List.nil_append, List.append_nil, Nat.add_assoc, Nat.reduceAdd] at h
    simp only [List.length_cons, List.length_nil, lkLitByteSwitch, lkLitByte1, lkLitByte2, lkLitByte3, lkLitByte4, lkLitByte5, lkLitByte6, lkLitByte7, lkLitByte8, lkLitByte9, lkLitByte10, lkLitByte11, lkLitByte12, h,
      ok_bind, lkFinal_eq, lkMix_eq, lkO_shl0, lkO_zero, load32, load16, lit_word, big_word, half_word, half_shl0,
      lit_mask3', lit_mask2', lit_mask1', big_mask3', big_mask2', big_mask1', Bool.false_eq_true, if_false, if_true, Nat.add_assoc, Nat.reduceAdd, Spec.hashKey, Spec.hashRegs, hashWord_false, hashWord_true, List.getD_cons_zero, List.getD_cons_succ, List.getD_nil, lkO_nil,
      BitVec.add_zero, BitVec.zero_add]
    try simp only [BitVec.add_comm, lk_left_comm, BitVec.add_assoc]
  | [o0, o1, o2, o3, o4, o5, o6, o7, o8, o9, o10], h, _ =>
    simp only [RdAll, List.cons_append, List.nil_append, List.append_nil, Nat.add_assoc, Nat.reduceAdd] at h
    simp only [List.length_cons, List.length_nil, lkLitByteSwitch, lkLitByte1, lkLitByte2, lkLitByte3, lkLitByte4, lkLitByte5, lkLitByte6, lkLitByte7, lkLitByte8, lkLitByte9, lkLitByte10, lkLitByte11, lkLitByte12, h,
      ok_bind, lkFinal_eq, lkMix_eq, lkO_shl0, lkO_zero, load32, load16, lit_word, big_word, half_word, half_shl0,
      lit_mask3', lit_mask2', lit_mask1', big_mask3', big_mask2', big_mask1', Bool.false_eq_true, if_false, if_true, Nat.add_assoc, Nat.reduceAdd, Spec.hashKey, Spec.hashRegs, hashWord_false, hashWord_true, List.getD_cons_zero, List.getD_cons_succ, List.getD_nil, lkO_nil,
      BitVec.add_zero, BitVec.zero_add]
    try simp only [BitVec.add_comm, lk_left_comm, BitVec.add_assoc]
  | [o0, o1, o2, o3, o4, o5, o6, o7, o8, o9, o10, o11], h, _ =>
    simp only [RdAll, List.cons_append, List.nil_append, List.append_nil, Nat.add_assoc, Nat.reduceAdd] at h
    simp only [List.length_cons, List.length_nil, lkLitByteSwitch, lkLitByte1, lkLitByte2, lkLitByte3, lkLitByte4, lkLitByte5, lkLitByte6, lkLitByte7, lkLitByte8, lkLitByte9, lkLitByte10, lkLitByte11, lkLitByte12, h,
      ok_bind, lkFinal_eq, lkMix_eq, lkO_shl0, lkO_zero, load32, load16, lit_word, big_word, half_word, half_shl0,
      lit_mask3', lit_mask2', lit_mask1', big_mask3', big_mask2', big_mask1', Bool.false_eq_true, if_false, if_true, Nat.add_assoc, Nat.reduceAdd, Spec.hashKey, Spec.hashRegs, hashWord_false, hashWord_true, List.getD_cons_zero, List.getD_cons_succ, List.getD_nil, lkO_nil,
      BitVec.add_zero, BitVec.zero_add]
    try simp only [BitVec.add_comm, lk_left_comm, BitVec.add_assoc]
  | _ :: _ :: _ :: _ :: _ :: _ :: _ :: _ :: _ :: _ :: _ :: _ :: _ :: _, _, hn => simp only [List.length_cons] at hn; omega

theorem bigMask_switch {mem : List UInt8} {p : Nat} (s : Lk) : ∀ (os ts : List UInt8), RdAll mem p (os ++ ts) → os.length ≤ 12 → ts.length < 4 → (os.length + ts.length) % 4 = 0 →
    lkBigMaskSwitch mem p os.length s = ok (Spec.hashRegs s (Spec.hashKey true os)) := by
  obtain ⟨a, b, c⟩ := s
  intro os ts h hn ht hm
  match os, h, hn, hm with
  | [], _, _, _ => rfl
  | [o0], h, _, hm =>
    simp only [List.length_cons, List.length_nil] at hm
    obtain ⟨t0, t1, t2, rfl⟩ := three_of (ts := ts) (by omega)
    simp only [RdAll, List.cons_append, List.nil_append, List.append_nil, Nat.add_assoc, Nat.reduceAdd] at h
    simp only [List.length_cons, List.length_nil, lkBigMaskSwitch, lkBigMask1, lkBigMask2, lkBigMask3, lkBigMask4, lkBigMask5, lkBigMask6, lkBigMask7, lkBigMask8, lkBigMask9, lkBigMask10, lkBigMask11, lkBigMask12, h,
      ok_bind, lkFinal_eq, lkMix_eq, lkO_shl0, lkO_zero, load32, load16, lit_word, big_word, half_word, half_shl0,
      lit_mask3', lit_mask2', lit_mask1', big_mask3', big_mask2', big_mask1', Bool.false_eq_true, if_false, if_true, Nat.add_assoc, Nat.reduceAdd, Spec.hashKey, Spec.hashRegs, hashWord_false, hashWord_true, List.getD_cons_zero, List.getD_cons_succ, List.getD_nil, lkO_nil,
      BitVec.add_zero, BitVec.zero_add]
    try simp only [BitVec.add_comm, lk_left_comm, BitVec.add_assoc]
  | [o0, o1], h, _, hm =>
    simp only [List.length_cons, List.length_nil] at hm
    obtain ⟨t0, t1, rfl⟩ := two_oct (ts := ts) (by omega)
    simp only [RdAll, List.cons_append, List.nil_append, List.append_nil, Nat.add_assoc, Nat.reduceAdd] at h
    simp only [List.length_cons, List.length_nil, lkBigMaskSwitch, lkBigMask1, lkBigMask2, lkBigMask3, lkBigMask4, lkBigMask5, lkBigMask6, lkBigMask7, lkBigMask8, lkBigMask9, lkBigMask10, lkBigMask11, lkBigMask12, h,
      ok_bind, lkFinal_eq, lkMix_eq, lkO_shl0, lkO_zero, load32, load16, lit_word, big_word, half_word, half_shl0,
      lit_mask3', lit_mask2', lit_mask1', big_mask3', big_mask2', big_mask1', Bool.false_eq_true, if_false, if_true, Nat.add_assoc, Nat.reduceAdd, Spec.hashKey, Spec.hashRegs, hashWord_false, hashWord_true, List.getD_cons_zero, List.getD_cons_succ, List.getD_nil, lkO_nil,
      BitVec.add_zero, BitVec.zero_add]
    try simp only [BitVec.add_comm, lk_left_comm, BitVec.add_assoc]
  | [o0, o1, o2], h, _, hm =>
    simp only [List.length_cons, List.length_nil] at hm
    obtain ⟨t0, rfl⟩ := one_of (ts := ts) (by omega)
    simp only [RdAll, List.cons_append, List.nil_append, List.append_nil, Nat.add_assoc, Nat.reduceAdd] at h
    simp only [List.length_cons, List.length_nil, lkBigMaskSwitch, lkBigMask1, lkBigMask2, lkBigMask3, lkBigMask4, lkBigMask5, lkBigMask6, lkBigMask7, lkBigMask8, lkBigMask9, lkBigMask10, lkBigMask11, lkBigMask12, h,
      ok_bind, lkFinal_eq, lkMix_eq, lkO_shl0, lkO_zero, load32, load16, lit_word, big_word, half_word, half_shl0,
      lit_mask3', lit_mask2', lit_mask1', big_mask3', big_mask2', big_mask1', Bool.false_eq_true, if_false, if_true, Nat.add_assoc, Nat.reduceAdd, Spec.hashKey, Spec.hashRegs, hashWord_false, hashWord_true, List.getD_cons_zero, List.getD_cons_succ, List.getD_nil, lkO_nil,
      BitVec.add_zero, BitVec.zero_add]
    try simp only [BitVec.add_comm, lk_left_comm, BitVec.add_assoc]
  | [o0, o1, o2, o3], h, _, hm =>
    simp only [List.length_cons, List.length_nil] at hm
    obtain rfl := none_of (ts := ts) (by omega)
    simp only [RdAll, List.cons_append, List.nil_append, List.append_nil, Nat.add_assoc, Nat.reduceAdd] at h
    simp only [List.length_cons, List.length_nil, lkBigMaskSwitch, lkBigMask1, lkBigMask2, lkBigMask3, lkBigMask4, lkBigMask5, lkBigMask6, lkBigMask7, lkBigMask8, lkBigMask9, lkBigMask10, lkBigMask11, lkBigMask12, h,
      ok_bind, lkFinal_eq, lkMix_eq, lkO_shl0, lkO_zero, load32, load16, lit_word, big_word, half_word, half_shl0,
      lit_mask3', lit_mask2', lit_mask1', big_mask3', big_mask2', big_mask1', Bool.false_eq_true, if_false, if_true, Nat.add_assoc, Nat.reduceAdd, Spec.hashKey, Spec.hashRegs, hashWord_false, hashWord_true, List.getD_cons_zero, List.getD_cons_succ, List.getD_nil, lkO_nil,
      BitVec.add_zero, BitVec.zero_add]
    try simp only [BitVec.add_comm, lk_left_comm, BitVec.add_assoc]
  | [o0, o1, o2, o3, o4], h, _, hm =>
    simp only [List.length_cons, List.length_nil] at hm
    obtain ⟨t0, t1, t2, rfl⟩ := three_of (ts := ts) (by omega)
    simp only [RdAll, List.cons_append, List.nil_append, List.append_nil, Nat.add_assoc, Nat.reduceAdd] at h
    simp only [List.length_cons, List.length_nil, lkBigMaskSwitch, lkBigMask1, lkBigMask2, lkBigMask3, lkBigMask4, lkBigMask5, lkBigMask6, lkBigMask7, lkBigMask8, lkBigMask9, lkBigMask10, lkBigMask11, lkBigMask12, h,
      ok_bind, lkFinal_eq, lkMix_eq, lkO_shl0, lkO_zero, load32, load16, lit_word, big_word, half_word, half_shl0,
      lit_mask3', lit_mask2', lit_mask1', big_mask3', big_mask2', big_mask1', Bool.false_eq_true, if_false, if_true, Nat.add_assoc, Nat.reduceAdd, Spec.hashKey, Spec.hashRegs, hashWord_false, hashWord_true, List.getD_cons_zero, List.getD_cons_succ, List.getD_nil, lkO_nil,
      BitVec.add_zero, BitVec.zero_add]
    try simp only [BitVec.add_comm, lk_left_comm, BitVec.add_assoc]
  | [o0, o1, o2, o3, o4, o5], h, _, hm =>
    simp only [List.length_cons, List.length_nil] at hm
    obtain ⟨t0, t1, rfl⟩ := two_oct (ts := ts) (by omega)
    simp only [RdAll, List.cons_append, List.nil_append, List.append_nil, Nat.add_assoc, Nat.reduceAdd] at h
    simp only [List.length_cons, List.length_nil, lkBigMaskSwitch, lkBigMask1, lkBigMask2, lkBigMask3, lkBigMask4, lkBigMask5, lkBigMask6, lkBigMask7, lkBigMask8, lkBigMask9, lkBigMask10, lkBigMask11, lkBigMask12, h,
      ok_bind, lkFinal_eq, lkMix_eq, lkO_shl0, lkO_zero, load32, load16, lit_word, big_word, half_word, half_shl0,
      lit_mask3', lit_mask2', lit_mask1', big_mask3', big_mask2', big_mask1', Bool.false_eq_true, if_false, if_true, Nat.add_assoc, Nat.reduceAdd, Spec.hashKey, Spec.hashRegs, hashWord_false, hashWord_true, List.getD_cons_zero, List.getD_cons_succ, List.getD_nil, lkO_nil,
      BitVec.add_zero, BitVec.zero_add]
    try simp only [BitVec.add_comm, lk_left_comm, BitVec.add_assoc]
  | [o0, o1, o2, o3, o4, o5, o6], h, _, hm =>
    simp only [List.length_cons, List.length_nil] at hm
    obtain ⟨t0, rfl⟩ := one_of (ts := ts) (by omega)
    simp only [RdAll, List.cons_append, List.nil_append, List.append_nil, Nat.add_assoc, Nat.reduceAdd] at h
    simp only [List.length_cons, List.length_nil, lkBigMaskSwitch, lkBigMask1, lkBigMask2, lkBigMask3, lkBigMask4, lkBigMask5, lkBigMask6, lkBigMask7, lkBigMask8, lkBigMask9, lkBigMask10, lkBigMask11, lkBigMask12, h,
      ok_bind, lkFinal_eq, lkMix_eq, lkO_shl0, lkO_zero, load32, load16, lit_word, big_word, half_word, half_shl0,
      lit_mask3', lit_mask2', lit_mask1', big_mask3', big_mask2', big_mask1', Bool.false_eq_true, if_false, if_true, Nat.add_assoc, Nat.reduceAdd, Spec.hashKey, Spec.hashRegs, hashWord_false, hashWord_true, List.getD_cons_zero, List.getD_cons_succ, List.getD_nil, lkO_nil,
      BitVec.add_zero, BitVec.zero_add]
    try simp only [BitVec.add_comm, lk_left_comm, BitVec.add_assoc]
  | [o0, o1, o2, o3, o4, o5, o6, o7], h, _, hm =>
    simp only [List.length_cons, List.length_nil] at hm
    obtain rfl := none_of (ts := ts) (by omega)
    simp only [RdAll, List.cons_append, List.nil_append, List.append_nil, Nat.add_assoc, Nat.reduceAdd] at h
    simp only [List.length_cons, List.length_nil, lkBigMaskSwitch, lkBigMask1, lkBigMask2, lkBigMask3, lkBigMask4, lkBigMask5, lkBigMask6, lkBigMask7, lkBigMask8, lkBigMask9, lkBigMask10, lkBigMask11, lkBigMask12, h,
      ok_bind, lkFinal_eq, lkMix_eq, lkO_shl0, lkO_zero, load32, load16, lit_word, big_word, half_word, half_shl0,
      lit_mask3', lit_mask2', lit_mask1', big_mask3', big_mask2', big_mask1', Bool.false_eq_true, if_false, if_true, Nat.add_assoc, Nat.reduceAdd, Spec.hashKey, Spec.hashRegs, hashWord_false, hashWord_true, List.getD_cons_zero, List.getD_cons_succ, List.getD_nil, lkO_nil,
      BitVec.add_zero, BitVec.zero_add]
    try simp only [BitVec.add_comm, lk_left_comm, BitVec.add_assoc]
  | [o0, o1, o2, o3, o4, o5, o6, o7, o8], h, _, hm =>
    simp only [List.length_cons, List.length_nil] at hm
    obtain ⟨t0, t1, t2, rfl⟩ := three_of (ts := ts) (by omega)
    simp only [RdAll, List.cons_append, List.nil_append, List.append_nil, Nat.add_assoc, Nat.reduceAdd] at h
    simp only [List.length_cons, List.length_nil, lkBigMaskSwitch, lkBigMask1, lkBigMask2, lkBigMask3, lkBigMask4, lkBigMask5, lkBigMask6, lkBigMask7, lkBigMask8, lkBigMask9, lkBigMask10, lkBigMask11, lkBigMask12, h,
      ok_bind, lkFinal_eq, lkMix_eq, lkO_shl0, lkO_zero, load32, load16, lit_word, big_word, half_word, half_shl0,
      lit_mask3', lit_mask2', lit_mask1', big_mask3', big_mask2', big_mask1', Bool.false_eq_true, if_false, if_true, Nat.add_assoc, Nat.reduceAdd, Spec.hashKey, Spec.hashRegs, hashWord_false, hashWord_true, List.getD_cons_zero, List.getD_cons_succ, List.getD_nil, lkO_nil,
      BitVec.add_zero, BitVec.zero_add]
    try simp only [BitVec.add_comm, lk_left_comm, BitVec.add_assoc]
  | [o0, o1, o2, o3, o4, o5, o6, o7, o8, o9], h, _, hm =>
    simp only [List.length_cons, List.length_nil] at hm
    obtain ⟨t0, t1, rfl⟩ := two_oct (ts := ts) (by omega)
    simp only [RdAll, List.cons_append, List.nil_append, List.append_nil, Nat.add_assoc, Nat.reduceAdd] at h
    simp only [List.length_cons, List.length_nil, lkBigMaskSwitch, lkBigMask1, lkBigMask2, lkBigMask3, lkBigMask4, lkBigMask5, lkBigMask6, lkBigMask7, lkBigMask8, lkBigMask9, lkBigMask10, lkBigMask11, lkBigMask12, h,
      ok_bind, lkFinal_eq, lkMix_eq, lkO_shl0, lkO_zero, load32, load16, lit_word, big_word, half_word, half_shl0,
      lit_mask3', lit_mask2', lit_mask1', big_mask3', big_mask2', big_mask1', Bool.false_eq_true, if_false, if_true, Nat.add_assoc, Nat.reduceAdd, Spec.hashKey, Spec.hashRegs, hashWord_false, hashWord_true, List.getD_cons_zero, List.getD_cons_succ, List.getD_nil, lkO_nil,
      BitVec.add_zero, BitVec.zero_add]
    try simp only [BitVec.add_comm, lk_left_comm, BitVec.add_assoc]
  | [o0, o1, o2, o3, o4, o5, o6, o7, o8, o9, o10], h, _, hm =>
    simp only [List.length_cons, List.length_nil] at hm
    obtain ⟨t0, rfl⟩ := one_of (ts := ts) (by omega)
    simp only [RdAll, List.cons_append, List.nil_append, List.append_nil, Nat.add_assoc, Nat.reduceAdd] at h
    simp only [List.length_cons, List.length_nil, lkBigMaskSwitch, lkBigMask1, lkBigMask2, lkBigMask3, lkBigMask4, lkBigMask5, lkBigMask6, lkBigMask7, lkBigMask8, lkBigMask9, lkBigMask10, lkBigMask11, lkBigMask12, h,
      ok_bind, lkFinal_eq, lkMix_eq, lkO_shl0, lkO_zero, load32, load16, lit_word, big_word, half_word, half_shl0,
      lit_mask3', lit_mask2', lit_mask1', big_mask3', big_mask2', big_mask1', Bool.false_eq_true, if_false, if_true, Nat.add_assoc, Nat.reduceAdd, Spec.hashKey, Spec.hashRegs, hashWord_false, hashWord_true, List.getD_cons_zero, List.getD_cons_succ, List.getD_nil, lkO_nil,
      BitVec.add_zero, BitVec.zero_add]
    try simp only [BitVec.add_comm, lk_left_comm, BitVec.add_assoc]
  | [o0, o1, o2, o3, o4, o5, o6, o7, o8, o9, o10, o11], h, _, hm =>
    simp only [List.length_cons, List.length_nil] at hm
    obtain rfl := none_of (ts := ts) (by omega)
    simp only [RdAll, List.cons_append, List.nil_append, List.append_nil, Nat.add_assoc, Nat.reduceAdd] at h
    simp only [List.length_cons, List.length_nil, lkBigMaskSwitch, lkBigMask1, lkBigMask2, lkBigMask3, lkBigMask4, lkBigMask5, lkBigMask6, lkBigMask7, lkBigMask8, lkBigMask9, lkBigMask10, lkBigMask11, lkBigMask12, h,
      ok_bind, lkFinal_eq, lkMix_eq, lkO_shl0, lkO_zero, load32, load16, lit_word, big_word, half_word, half_shl0,
      lit_mask3', lit_mask2', lit_mask1', big_mask3', big_mask2', big_mask1', Bool.false_eq_true, if_false, if_true, Nat.add_assoc, Nat.reduceAdd, Spec.hashKey, Spec.hashRegs, hashWord_false, hashWord_true, List.getD_cons_zero, List.getD_cons_succ, List.getD_nil, lkO_nil,
      BitVec.add_zero, BitVec.zero_add]
    try simp only [BitVec.add_comm, lk_left_comm, BitVec.add_assoc]
  | _ :: _ :: _ :: _ :: _ :: _ :: _ :: _ :: _ :: _ :: _ :: _ :: _ :: _, _, hn, _ => simp only [List.length_cons] at hn; omega

theorem bigVal_switch {mem : List UInt8} {p : Nat} (s : Lk) : ∀ (os : List UInt8), RdAll mem p os → os.length ≤ 12 →
    lkBigValSwitch mem p os.length s = ok (Spec.hashRegs s (Spec.hashKey true os)) := by
  obtain ⟨a, b, c⟩ := s
  intro os h hn
  match os, h, hn with
  | [], _, _ => rfl
  | [o0], h, _ =>
    simp only [RdAll, List.cons_append, List.nil_append, List.append_nil, Nat.add_assoc, Nat.reduceAdd] at h
    simp only [List.length_cons, List.length_nil, lkBigValSwitch, lkBigVal1, lkBigVal2, lkBigVal3, lkBigVal4, lkBigVal5, lkBigVal6, lkBigVal7, lkBigVal8, lkBigVal9, lkBigVal10, lkBigVal11, lkBigVal12, h,
      ok_bind, lkFinal_eq, lkMix_eq, lkO_shl0, lkO_zero, load32, load16, lit_word, big_word, half_word, half_shl0,
      lit_mask3', lit_mask2', lit_mask1', big_mask3', big_mask2', big_mask1', Bool.false_eq_true, if_false, if_true, Nat.add_assoc, Nat.reduceAdd, Spec.hashKey, Spec.hashRegs, hashWord_false, hashWord_true, List.getD_cons_zero, List.getD_cons_succ, List.getD_nil, lkO_nil,
      BitVec.add_zero, BitVec.zero_add]
    try simp only [BitVec.add_comm, lk_left_comm, BitVec.add_assoc]
  | [o0, o1], h, _ =>
    simp only [RdAll, List.cons_append, List.nil_append, List.append_nil, Nat.add_assoc, Nat.reduceAdd] at h
    simp only [List.length_cons, List.length_nil, lkBigValSwitch, lkBigVal1, lkBigVal2, lkBigVal3, lkBigVal4, lkBigVal5, lkBigVal6, lkBigVal7, lkBigVal8, lkBigVal9, lkBigVal10, lkBigVal11, lkBigVal12, h,
      ok_bind, lkFinal_eq, lkMix_eq, lkO_shl0, lkO_zero, load32, load16, lit_word, big_word, half_word, half_shl0,
      lit_mask3', lit_mask2', lit_mask1', big_mask3', big_mask2', big_mask1', Bool.false_eq_true, if_false, if_true, Nat.add_assoc, Nat.reduceAdd, Spec.hashKey, Spec.hashRegs, hashWord_false, hashWord_true, List.getD_cons_zero, List.getD_cons_succ, List.getD_nil, lkO_nil,
      BitVec.add_zero, BitVec.zero_add]
    try simp only [BitVec.add_comm, lk_left_comm, BitVec.add_assoc]
  | [o0, o1, o2], h, _ =>
    simp only [RdAll, List.cons_append, List.nil_append, List.append_nil, Nat.add_assoc, Nat.reduceAdd] at h
    simp only [List.length_cons, List.length_nil, lkBigValSwitch, lkBigVal1, lkBigVal2, lkBigVal3, lkBigVal4, lkBigVal5, lkBigVal6, lkBigVal7, lkBigVal8, lkBigVal9, lkBigVal10, lkBigVal11, lkBigVal12, h,
      ok_bind, lkFinal_eq, lkMix_eq, lkO_shl0, lkO_zero, load32, load16, lit_word, big_word, half_word, half_shl0,
      lit_mask3', lit_mask2', lit_mask1', big_mask3', big_mask2', big_mask1', Bool.false_eq_true, if_false, if_true, Nat.add_assoc, Nat.reduceAdd, Spec.hashKey, Spec.hashRegs, hashWord_false, hashWord_true, List.getD_cons_zero, List.getD_cons_succ, List.getD_nil, lkO_nil,
      BitVec.add_zero, BitVec.zero_add]
    try simp only [BitVec.add_comm, lk_left_comm, BitVec.add_assoc]
  | [o0, o1, o2, o3], h, _ =>
    simp only [RdAll, List.cons_append, List.nil_append, List.append_nil, Nat.add_assoc, Nat.reduceAdd] at h
    simp only [List.length_cons, List.length_nil, lkBigValSwitch, lkBigVal1, lkBigVal2, lkBigVal3, lkBigVal4, lkBigVal5, lkBigVal6, lkBigVal7, lkBigVal8, lkBigVal9, lkBigVal10, lkBigVal11, lkBigVal12, h,
      ok_bind, lkFinal_eq, lkMix_eq, lkO_shl0, lkO_zero, load32, load16, lit_word, big_word, half_word, half_shl0,
      lit_mask3', lit_mask2', lit_mask1', big_mask3', big_mask2', big_mask1', Bool.false_eq_true, if_false, if_true, Nat.add_assoc, Nat.reduceAdd, Spec.hashKey, Spec.hashRegs, hashWord_false, hashWord_true, List.getD_cons_zero, List.getD_cons_succ, List.getD_nil, lkO_nil,
      BitVec.add_zero, BitVec.zero_add]
    try simp only [BitVec.add_comm, lk_left_comm, BitVec.add_assoc]
  | [o0, o1, o2, o3, o4], h, _ =>
    simp only [RdAll, List.cons_append, List.nil_append, List.append_nil, Nat.add_assoc, Nat.reduceAdd] at h
    simp only [List.length_cons, List.length_nil, lkBigValSwitch, lkBigVal1, lkBigVal2, lkBigVal3, lkBigVal4, lkBigVal5, lkBigVal6, lkBigVal7, lkBigVal8, lkBigVal9, lkBigVal10, lkBigVal11, lkBigVal12, h,
      ok_bind, lkFinal_eq, lkMix_eq, lkO_shl0, lkO_zero, load32, load16, lit_word, big_word, half_word, half_shl0,
      lit_mask3', lit_mask2', lit_mask1', big_mask3', big_mask2', big_mask1', Bool.false_eq_true, if_false, if_true, Nat.add_assoc, Nat.reduceAdd, Spec.hashKey, Spec.hashRegs, hashWord_false, hashWord_true, List.getD_cons_zero, List.getD_cons_succ, List.getD_nil, lkO_nil,
      BitVec.add_zero, BitVec.zero_add]
    try simp only [BitVec.add_comm, lk_left_comm, BitVec.add_assoc]
  | [o0, o1, o2, o3, o4, o5], h, _ =>
    simp only [RdAll, List.cons_append, List.nil_append, List.append_nil, Nat.add_assoc, Nat.reduceAdd] at h
    simp only [List.length_cons, List.length_nil, lkBigValSwitch, lkBigVal1, lkBigVal2, lkBigVal3, lkBigVal4, lkBigVal5, lkBigVal6, lkBigVal7, lkBigVal8, lkBigVal9, lkBigVal10, lkBigVal11, lkBigVal12, h,
      ok_bind, lkFinal_eq, lkMix_eq, lkO_shl0, lkO_zero, load32, load16, lit_word, big_word, half_word, half_shl0,
      lit_mask3', lit_mask2', lit_mask1', big_mask3', big_mask2', big_mask1', Bool.false_eq_true, if_false, if_true, Nat.add_assoc, Nat.reduceAdd, Spec.hashKey, Spec.hashRegs, hashWord_false, hashWord_true, List.getD_cons_zero, List.getD_cons_succ, List.getD_nil, lkO_nil,
      BitVec.add_zero, BitVec.zero_add]
    try simp only [BitVec.add_comm, lk_left_comm, BitVec.add_assoc]
  | [o0, o1, o2, o3, o4, o5, o6], h, _ =>
    simp only [RdAll, List.cons_append, List.nil_append, List.append_nil, Nat.add_assoc, Nat.reduceAdd] at h
    simp only [List.length_cons, List.length_nil, lkBigValSwitch, lkBigVal1, lkBigVal2, lkBigVal3, lkBigVal4, lkBigVal5, lkBigVal6, lkBigVal7, lkBigVal8, lkBigVal9, lkBigVal10, lkBigVal11, lkBigVal12, h,
      ok_bind, lkFinal_eq, lkMix_eq, lkO_shl0, lkO_zero, load32, load16, lit_word, big_word, half_word, half_shl0,
      lit_mask3', lit_mask2', lit_mask1', big_mask3', big_mask2', big_mask1', Bool.false_eq_true, if_false, if_true, Nat.add_assoc, Nat.reduceAdd, Spec.hashKey, Spec.hashRegs, hashWord_false, hashWord_true, List.getD_cons_zero, List.getD_cons_succ, List.getD_nil, lkO_nil,
      BitVec.add_zero, BitVec.zero_add]
    try simp only [BitVec.add_comm, lk_left_comm, BitVec.add_assoc]
  | [o0, o1, o2, o3, o4, o5, o6, o7], h, _ =>
    simp only [RdAll, List.cons_append, List.nil_append, List.append_nil, Nat.add_assoc, Nat.reduceAdd] at h
    simp only [List.length_cons, List.length_nil, lkBigValSwitch, lkBigVal1, lkBigVal2, lkBigVal3, lkBigVal4, lkBigVal5, lkBigVal6, lkBigVal7, lkBigVal8, lkBigVal9, lkBigVal10, lkBigVal11, lkBigVal12, h,
      ok_bind, lkFinal_eq, lkMix_eq, lkO_shl0, lkO_zero, load32, load16, lit_word, big_word, half_word, half_shl0,
      lit_mask3', lit_mask2', lit_mask1', big_mask3', big_mask2', big_mask1', Bool.false_eq_true, if_false, if_true, Nat.add_assoc, Nat.reduceAdd, Spec.hashKey, Spec.hashRegs, hashWord_false, hashWord_true, List.getD_cons_zero, List.getD_cons_succ, List.getD_nil, lkO_nil,
      BitVec.add_zero, BitVec.zero_add]
    try simp only [BitVec.add_comm, lk_left_comm, BitVec.add_assoc]
  | [o0, o1, o2, o3, o4, o5, o6, o7, o8], h, _ =>
    simp only [RdAll, List.cons_append, List.nil_append, List.append_nil, Nat.add_assoc, Nat.reduceAdd] at h
    simp only [List.length_cons, List.length_nil, lkBigValSwitch, lkBigVal1, lkBigVal2, lkBigVal3, lkBigVal4, lkBigVal5, lkBigVal6, lkBigVal7, lkBigVal8, lkBigVal9, lkBigVal10, lkBigVal11, lkBigVal12, h,
      ok_bind, lkFinal_eq, lkMix_eq, lkO_shl0, lkO_zero, load32, load16, lit_word, big_word, half_word, half_shl0,
      lit_mask3', lit_mask2', lit_mask1', big_mask3', big_mask2', big_mask1', Bool.false_eq_true, if_false, if_true, Nat.add_assoc, Nat.reduceAdd, Spec.hashKey, Spec.hashRegs, hashWord_false, hashWord_true, List.getD_cons_zero, List.getD_cons_succ, List.getD_nil, lkO_nil,
      BitVec.add_zero, BitVec.zero_add]
    try simp only [BitVec.add_comm, lk_left_comm, BitVec.add_assoc]
  | [o0, o1, o2, o3, o4, o5, o6, o7, o8, o9], h, _ =>
    simp only [RdAll, List.cons_append, List.nil_append, List.append_nil, Nat.add_assoc, Nat.reduceAdd] at h
    simp only [List.length_cons, List.length_nil, lkBigValSwitch, lkBigVal1, lkBigVal2, lkBigVal3, lkBigVal4, lkBigVal5, lkBigVal6, lkBigVal7, lkBigVal8, lkBigVal9, lkBigVal10, lkBigVal11, lkBigVal12, h,
      ok_bind, lkFinal_eq, lkMix_eq, lkO_shl0, lkO_zero, load32, load16, lit_word, big_word, half_word, half_shl0,
      lit_mask3', lit_mask2', lit_mask1', big_mask3', big_mask2', big_mask1', Bool.false_eq_true, if_false, if_true, Nat.add_assoc, Nat.reduceAdd, Spec.hashKey, Spec.hashRegs, hashWord_false, hashWord_true, List.getD_cons_zero, List.getD_cons_succ, List.getD_nil, lkO_nil,
      BitVec.add_zero, BitVec.zero_add]
    try simp only [BitVec.add_comm, lk_left_comm, BitVec.add_assoc]
  | [o0, o1, o2, o3, o4, o5, o6, o7, o8, o9, o10], h, _ =>
    simp only [RdAll, List.cons_append, List.nil_append, List.append_nil, Nat.add_assoc, Nat.reduceAdd] at h
    simp only [List.length_cons, List.length_nil, lkBigValSwitch, lkBigVal1, lkBigVal2, lkBigVal3, lkBigVal4, lkBigVal5, lkBigVal6, lkBigVal7, lkBigVal8, lkBigVal9, lkBigVal10, lkBigVal11, lkBigVal12, h,
      ok_bind, lkFinal_eq, lkMix_eq, lkO_shl0, lkO_zero, load32, load16, lit_word, big_word, half_word, half_shl0,
      lit_mask3', lit_mask2', lit_mask1', big_mask3', big_mask2', big_mask1', Bool.false_eq_true, if_false, if_true, Nat.add_assoc, Nat.reduceAdd, Spec.hashKey, Spec.hashRegs, hashWord_false, hashWord_true, List.getD_cons_zero, List.getD_cons_succ, List.getD_nil, lkO_nil,
      BitVec.add_zero, BitVec.zero_add]
    try simp only [BitVec.add_comm, lk_left_comm, BitVec.add_assoc]
  | [o0, o1, o2, o3, o4, o5, o6, o7, o8, o9, o10, o11], h, _ =>
    simp only [RdAll, List.cons_append, List.nil_append, List.append_nil, Nat.add_assoc, Nat.reduceAdd] at h
    simp only [List.length_cons, List.length_nil, lkBigValSwitch, lkBigVal1, lkBigVal2, lkBigVal3, lkBigVal4, lkBigVal5, lkBigVal6, lkBigVal7, lkBigVal8, lkBigVal9, lkBigVal10, lkBigVal11, lkBigVal12, h,
      ok_bind, lkFinal_eq, lkMix_eq, lkO_shl0, lkO_zero, load32, load16, lit_word, big_word, half_word, half_shl0,
      lit_mask3', lit_mask2', lit_mask1', big_mask3', big_mask2', big_mask1', Bool.false_eq_true, if_false, if_true, Nat.add_assoc, Nat.reduceAdd, Spec.hashKey, Spec.hashRegs, hashWord_false, hashWord_true, List.getD_cons_zero, List.getD_cons_succ, List.getD_nil, lkO_nil,
      BitVec.add_zero, BitVec.zero_add]
    try simp only [BitVec.add_comm, lk_left_comm, BitVec.add_assoc]
  | _ :: _ :: _ :: _ :: _ :: _ :: _ :: _ :: _ :: _ :: _ :: _ :: _ :: _, _, hn => simp only [List.length_cons] at hn; omega

theorem bigByte_switch {mem : List UInt8} {p : Nat} (s : Lk) : ∀ (os : List UInt8), RdAll mem p os → os.length ≤ 12 →
    lkBigByteSwitch mem p os.length s = ok (Spec.hashRegs s (Spec.hashKey true os)) := by
  obtain ⟨a, b, c⟩ := s
  intro os h hn
  match os, h, hn with
  | [], _, _ => rfl
  | [o0], h, _ =>
    simp only [RdAll, List.cons_append, List.nil_append, List.append_nil, Nat.add_assoc, Nat.reduceAdd] at h
    simp only [List.length_cons, List.length_nil, lkBigByteSwitch, lkBigByte1, lkBigByte2, lkBigByte3, lkBigByte4, lkBigByte5, lkBigByte6, lkBigByte7, lkBigByte8, lkBigByte9, lkBigByte10, lkBigByte11, lkBigByte12, h,
      ok_bind, lkFinal_eq, lkMix_eq, lkO_shl0, lkO_zero, load32, load16, lit_word, big_word, half_word, half_shl0,
      lit_mask3', lit_mask2', lit_mask1', big_mask3', big_mask2', big_mask1', Bool.false_eq_true, if_false, if_true, Nat.add_assoc, Nat.reduceAdd, Spec.hashKey, Spec.hashRegs, hashWord_false, hashWord_true, List.getD_cons_zero, List.getD_cons_succ, List.getD_nil, lkO_nil,
      BitVec.add_zero, BitVec.zero_add]
    try simp only [BitVec.add_comm, lk_left_comm, BitVec.add_assoc]
  | [o0, o1], h, _ =>
    simp only [RdAll, List.cons_append, List.nil_append, List.append_nil, Nat.add_assoc, Nat.reduceAdd] at h
    simp only [List.length_cons, List.length_nil, lkBigByteSwitch, lkBigByte1, lkBigByte2, lkBigByte3, lkBigByte4, lkBigByte5, lkBigByte6, lkBigByte7, lkBigByte8, lkBigByte9, lkBigByte10, lkBigByte11, lkBigByte12, h,
      ok_bind, lkFinal_eq, lkMix_eq, lkO_shl0, lkO_zero, load32, load16, lit_word, big_word, half_word, half_shl0,
      lit_mask3', lit_mask2', lit_mask1', big_mask3', big_mask2', big_mask1', Bool.false_eq_true, if_false, if_true, Nat.add_assoc, Nat.reduceAdd, Spec.hashKey, Spec.hashRegs, hashWord_false, hashWord_true, List.getD_cons_zero, List.getD_cons_succ, List.getD_nil, lkO_nil,
      BitVec.add_zero, BitVec.zero_add]
    try simp only [BitVec.add_comm, lk_left_comm, BitVec.add_assoc]
  | [o0, o1, o2], h, _ =>
    simp only [RdAll, List.cons_append, List.nil_append, List.append_nil, Nat.add_assoc, Nat.reduceAdd] at h
    simp only [List.length_cons, List.length_nil, lkBigByteSwitch, lkBigByte1, lkBigByte2, lkBigByte3, lkBigByte4, lkBigByte5, lkBigByte6, lkBigByte7, lkBigByte8, lkBigByte9, lkBigByte10, lkBigByte11, lkBigByte12, h,
      ok_bind, lkFinal_eq, lkMix_eq, lkO_shl0, lkO_zero, load32, load16, lit_word, big_word, half_word, half_shl0,
      lit_mask3', lit_mask2', lit_mask1', big_mask3', big_mask2', big_mask1', Bool.false_eq_true, if_false, if_true, Nat.add_assoc, Nat.reduceAdd, Spec.hashKey, Spec.hashRegs, hashWord_false, hashWord_true, List.getD_cons_zero, List.getD_cons_succ, List.getD_nil, lkO_nil,
      BitVec.add_zero, BitVec.zero_add]
    try simp only [BitVec.add_comm, lk_left_comm, BitVec.add_assoc]
  | [o0, o1, o2, o3], h, _ =>
    simp only [RdAll, List.cons_append, List.nil_append, List.append_nil, Nat.add_assoc, Nat.reduceAdd] at h
    simp only [List.length_cons, List.length_nil, lkBigByteSwitch, lkBigByte1, lkBigByte2, lkBigByte3, lkBigByte4, lkBigByte5, lkBigByte6, lkBigByte7, lkBigByte8, lkBigByte9, lkBigByte10, lkBigByte11, lkBigByte12, h,
      ok_bind, lkFinal_eq, lkMix_eq, lkO_shl0, lkO_zero, load32, load16, lit_word, big_word, half_word, half_shl0,
      lit_mask3', lit_mask2', lit_mask1', big_mask3', big_mask2', big_mask1', Bool.false_eq_true, if_false, if_true, Nat.add_assoc, Nat.reduceAdd, Spec.hashKey, Spec.hashRegs, hashWord_false, hashWord_true, List.getD_cons_zero, List.getD_cons_succ, List.getD_nil, lkO_nil,
      BitVec.add_zero, BitVec.zero_add]
    try simp only [BitVec.add_comm, lk_left_comm, BitVec.add_assoc]
  | [o0, o1, o2, o3, o4], h, _ =>
    simp only [RdAll, List.cons_append, List.nil_append, List.append_nil, Nat.add_assoc, Nat.reduceAdd] at h
    simp only [List.length_cons, List.length_nil, lkBigByteSwitch, lkBigByte1, lkBigByte2, lkBigByte3, lkBigByte4, lkBigByte5, lkBigByte6, lkBigByte7, lkBigByte8, lkBigByte9, lkBigByte10, lkBigByte11, lkBigByte12, h,
      ok_bind, lkFinal_eq, lkMix_eq, lkO_shl0, lkO_zero, load32, load16, lit_word, big_word, half_word, half_shl0,
      lit_mask3', lit_mask2', lit_mask1', big_mask3', big_mask2', big_mask1', Bool.false_eq_true, if_false, if_true, Nat.add_assoc, Nat.reduceAdd, Spec.hashKey, Spec.hashRegs, hashWord_false, hashWord_true, List.getD_cons_zero, List.getD_cons_succ, List.getD_nil, lkO_nil,
      BitVec.add_zero, BitVec.zero_add]
    try simp only [BitVec.add_comm, lk_left_comm, BitVec.add_assoc]
  | [o0, o1, o2, o3, o4, o5], h, _ =>
    simp only [RdAll, List.cons_append, List.nil_append, List.append_nil, Nat.add_assoc, Nat.reduceAdd] at h
    simp only [List.length_cons, List.length_nil, lkBigByteSwitch, lkBigByte1, lkBigByte2, lkBigByte3, lkBigByte4, lkBigByte5, lkBigByte6, lkBigByte7, lkBigByte8, lkBigByte9, lkBigByte10, lkBigByte11, lkBigByte12, h,
      ok_bind, lkFinal_eq, lkMix_eq, lkO_shl0, lkO_zero, load32, load16, lit_word, big_word, half_word, half_shl0,
      lit_mask3', lit_mask2', lit_mask1', big_mask3', big_mask2', big_mask1', Bool.false_eq_true, if_false, if_true, Nat.add_assoc, Nat.reduceAdd, Spec.hashKey, Spec.hashRegs, hashWord_false, hashWord_true, List.getD_cons_zero, List.getD_cons_succ, List.getD_nil, lkO_nil,
      BitVec.add_zero, BitVec.zero_add]
    try simp only [BitVec.add_comm, lk_left_comm, BitVec.add_assoc]
  | [o0, o1, o2, o3, o4, o5, o6], h, _ =>
    simp only [RdAll, List.cons_append, List.nil_append, List.append_nil, Nat.add_assoc, Nat.reduceAdd] at h
    simp only [List.length_cons, List.length_nil, lkBigByteSwitch, lkBigByte1, lkBigByte2, lkBigByte3, lkBigByte4, lkBigByte5, lkBigByte6, lkBigByte7, lkBigByte8, lkBigByte9, lkBigByte10, lkBigByte11, lkBigByte12, h,
      ok_bind, lkFinal_eq, lkMix_eq, lkO_shl0, lkO_zero, load32, load16, lit_word, big_word, half_word, half_shl0,
      lit_mask3', lit_mask2', lit_mask1', big_mask3', big_mask2', big_mask1', Bool.false_eq_true, if_false, if_true, Nat.add_assoc, Nat.reduceAdd, Spec.hashKey, Spec.hashRegs, hashWord_false, hashWord_true, List.getD_cons_zero, List.getD_cons_succ, List.getD_nil, lkO_nil,
      BitVec.add_zero, BitVec.zero_add]
    try simp only [BitVec.add_comm, lk_left_comm, BitVec.add_assoc]
  | [o0, o1, o2, o3, o4, o5, o6, o7], h, _ =>
    simp only [RdAll, List.cons_append, List.nil_append, List.append_nil, Nat.add_assoc, Nat.reduceAdd] at h
    simp only [List.length_cons, List.length_nil, lkBigByteSwitch, lkBigByte1, lkBigByte2, lkBigByte3, lkBigByte4, lkBigByte5, lkBigByte6, lkBigByte7, lkBigByte8, lkBigByte9, lkBigByte10, lkBigByte11, lkBigByte12, h,
      ok_bind, lkFinal_eq, lkMix_eq, lkO_shl0, lkO_zero, load32, load16, lit_word, big_word, half_word, half_shl0,
      lit_mask3', lit_mask2', lit_mask1', big_mask3', big_mask2', big_mask1', Bool.false_eq_true, if_false, if_true, Nat.add_assoc, Nat.reduceAdd, Spec.hashKey, Spec.hashRegs, hashWord_false, hashWord_true, List.getD_cons_zero, List.getD_cons_succ, List.getD_nil, lkO_nil,
      BitVec.add_zero, BitVec.zero_add]
    try simp only [BitVec.add_comm, lk_left_comm, BitVec.add_assoc]
  | [o0, o1, o2, o3, o4, o5, o6, o7, o8], h, _ =>
    simp only [RdAll, List.cons_append, List.nil_append, List.append_nil, Nat.add_assoc, Nat.reduceAdd] at h
    simp only [List.length_cons, List.length_nil, lkBigByteSwitch, lkBigByte1, lkBigByte2, lkBigByte3, lkBigByte4, lkBigByte5, lkBigByte6, lkBigByte7, lkBigByte8, lkBigByte9, lkBigByte10, lkBigByte11, lkBigByte12, h,
      ok_bind, lkFinal_eq, lkMix_eq, lkO_shl0, lkO_zero, load32, load16, lit_word, big_word, half_word, half_shl0,
      lit_mask3', lit_mask2', lit_mask1', big_mask3', big_mask2', big_mask1', Bool.false_eq_true, if_false, if_true, Nat.add_assoc, Nat.reduceAdd, Spec.hashKey, Spec.hashRegs, hashWord_false, hashWord_true, List.getD_cons_zero, List.getD_cons_succ, List.getD_nil, lkO_nil,
      BitVec.add_zero, BitVec.zero_add]
    try simp only [BitVec.add_comm, lk_left_comm, BitVec.add_assoc]
  | [o0, o1, o2, o3, o4, o5, o6, o7, o8, o9], h, _ =>
    simp only [RdAll, List.cons_append, List.nil_append, List.append_nil, Nat.add_assoc, Nat.reduceAdd] at h
    simp only [List.length_cons, List.length_nil, lkBigByteSwitch, lkBigByte1, lkBigByte2, lkBigByte3, lkBigByte4, lkBigByte5, lkBigByte6, lkBigByte7, lkBigByte8, lkBigByte9, lkBigByte10, lkBigByte11, lkBigByte12, h,
      ok_bind, lkFinal_eq, lkMix_eq, lkO_shl0, lkO_zero, load32, load16, lit_word, big_word, half_word, half_shl0,
      lit_mask3', lit_mask2', lit_mask1', big_mask3', big_mask2', big_mask1', Bool.false_eq_true, if_false, if_true, Nat.add_assoc, Nat.reduceAdd, Spec.hashKey, Spec.hashRegs, hashWord_false, hashWord_true, List.getD_cons_zero, List.getD_cons_succ, List.getD_nil, lkO_nil,
      BitVec.add_zero, BitVec.zero_add]
    try simp only [BitVec.add_comm, lk_left_comm, BitVec.add_assoc]
  | [o0, o1, o2, o3, o4, o5, o6, o7, o8, o9, o10], h, _ =>
    simp only [RdAll, List.cons_append, List.nil_append, List.append_nil, Nat.add_assoc, Nat.reduceAdd] at h
    simp only [List.length_cons, List.length_nil, lkBigByteSwitch, lkBigByte1, lkBigByte2, lkBigByte3, lkBigByte4, lkBigByte5, lkBigByte6, lkBigByte7, lkBigByte8, lkBigByte9, lkBigByte10, lkBigByte11, lkBigByte12, h,
      ok_bind, lkFinal_eq, lkMix_eq, lkO_shl0, lkO_zero, load32, load16, lit_word, big_word, half_word, half_shl0,
      lit_mask3', lit_mask2', lit_mask1', big_mask3', big_mask2', big_mask1', Bool.false_eq_true, if_false, if_true, Nat.add_assoc, Nat.reduceAdd, Spec.hashKey, Spec.hashRegs, hashWord_false, hashWord_true, List.getD_cons_zero, List.getD_cons_succ, List.getD_nil, lkO_nil,
      BitVec.add_zero, BitVec.zero_add]
    try simp only [BitVec.add_comm, lk_left_comm, BitVec.add_assoc]
  | [o0, o1, o2, o3, o4, o5, o6, o7, o8, o9, o10, o11], h, _ =>
    simp only [RdAll, List.cons_append, List.nil_append, List.append_nil, Nat.add_assoc, Nat.reduceAdd] at h
    simp only [List.length_cons, List.length_nil, lkBigByteSwitch, lkBigByte1, lkBigByte2, lkBigByte3, lkBigByte4, lkBigByte5, lkBigByte6, lkBigByte7, lkBigByte8, lkBigByte9, lkBigByte10, lkBigByte11, lkBigByte12, h,
      ok_bind, lkFinal_eq, lkMix_eq, lkO_shl0, lkO_zero, load32, load16, lit_word, big_word, half_word, half_shl0,
      lit_mask3', lit_mask2', lit_mask1', big_mask3', big_mask2', big_mask1', Bool.false_eq_true, if_false, if_true, Nat.add_assoc, Nat.reduceAdd, Spec.hashKey, Spec.hashRegs, hashWord_false, hashWord_true, List.getD_cons_zero, List.getD_cons_succ, List.getD_nil, lkO_nil,
      BitVec.add_zero, BitVec.zero_add]
    try simp only [BitVec.add_comm, lk_left_comm, BitVec.add_assoc]
  | _ :: _ :: _ :: _ :: _ :: _ :: _ :: _ :: _ :: _ :: _ :: _ :: _ :: _, _, hn => simp only [List.length_cons] at hn; omega

theorem litMask_run {mem : List UInt8} : ∀ (fuel p len : Nat) (s : Lk) (os ts : List UInt8), RdAll mem p (os ++ ts) → os.length = len → ts.length < 4 → (len + ts.length) % 4 = 0 → len < fuel →
    (do let (p, len, s) ← lkLitWordLoop mem fuel p len s; lkLitMaskSwitch mem p len s) = ok (Spec.hashRegs s (Spec.hashKey false os))
  | 0, _, _, _, _, _, _, _, _, _, hf => absurd hf (by omega)
  | fuel + 1, p, len, (a, b, c), os, ts, h, hl, ht, hm, hf => by
    rw [lkLitWordLoop]
    by_cases hn : len > 12
    · rw [if_pos hn]
      obtain ⟨o0, o1, o2, o3, o4, o5, o6, o7, o8, o9, o10, o11, o, rest, rfl⟩ : ∃ o0 o1 o2 o3 o4 o5 o6 o7 o8 o9 o10 o11 o, ∃ rest : List UInt8, os = o0 :: o1 :: o2 :: o3 :: o4 :: o5 :: o6 :: o7 :: o8 :: o9 :: o10 :: o11 :: o :: rest := by
        match os, hl with
        | o0 :: o1 :: o2 :: o3 :: o4 :: o5 :: o6 :: o7 :: o8 :: o9 :: o10 :: o11 :: o :: rest, _ => exact ⟨_, _, _, _, _, _, _, _, _, _, _, _, _, _, rfl⟩
        | [], hl => simp only [List.length_cons, List.length_nil] at hl; omega
        | [_], hl => simp only [List.length_cons, List.length_nil] at hl; omega
        | [_, _], hl => simp only [List.length_cons, List.length_nil] at hl; omega
        | [_, _, _], hl => simp only [List.length_cons, List.length_nil] at hl; omega
        | [_, _, _, _], hl => simp only [List.length_cons, List.length_nil] at hl; omega
        | [_, _, _, _, _], hl => simp only [List.length_cons, List.length_nil] at hl; omega
        | [_, _, _, _, _, _], hl => simp only [List.length_cons, List.length_nil] at hl; omega
        | [_, _, _, _, _, _, _], hl => simp only [List.length_cons, List.length_nil] at hl; omega
        | [_, _, _, _, _, _, _, _], hl => simp only [List.length_cons, List.length_nil] at hl; omega
        | [_, _, _, _, _, _, _, _, _], hl => simp only [List.length_cons, List.length_nil] at hl; omega
        | [_, _, _, _, _, _, _, _, _, _], hl => simp only [List.length_cons, List.length_nil] at hl; omega
        | [_, _, _, _, _, _, _, _, _, _, _], hl => simp only [List.length_cons, List.length_nil] at hl; omega
        | [_, _, _, _, _, _, _, _, _, _, _, _], hl => simp only [List.length_cons, List.length_nil] at hl; omega
      simp only [List.length_cons] at hl
      have hr : RdAll mem (p + 12) ((o :: rest) ++ ts) := by
        simp only [RdAll, List.cons_append, Nat.add_assoc, Nat.reduceAdd] at h ⊢
        exact h.2.2.2.2.2.2.2.2.2.2.2.2
      have ih := litMask_run fuel (p + 12) (len - 12) (Spec.mix (a + Spec.hashWord false [o0, o1, o2, o3], b + Spec.hashWord false [o4, o5, o6, o7], c + Spec.hashWord false [o8, o9, o10, o11]))
        (o :: rest) ts hr (by simp only [List.length_cons]; omega) ht (by omega) (by omega)
      obtain ⟨v, vs, hv⟩ := hashKey_cons false o rest
      have e : Spec.hashRegs (a, b, c) (Spec.hashKey false (o0 :: o1 :: o2 :: o3 :: o4 :: o5 :: o6 :: o7 :: o8 :: o9 :: o10 :: o11 :: o :: rest)) = Spec.hashRegs (Spec.mix (a + Spec.hashWord false [o0, o1, o2, o3],
          b + Spec.hashWord false [o4, o5, o6, o7], c + Spec.hashWord false [o8, o9, o10, o11])) (Spec.hashKey false (o :: rest)) := by
        simp only [Spec.hashKey.eq_5]; rw [hv, Spec.hashRegs]
      rw [e, ← ih]
      simp only [RdAll, List.cons_append, Nat.add_assoc, Nat.reduceAdd] at h
      obtain ⟨h0, h1, h2, h3, h4, h5, h6, h7, h8, h9, h10, h11, -⟩ := h
      simp only [h0, h1, h2, h3, h4, h5, h6, h7, h8, h9, h10, h11, ok_bind, lkFinal_eq, lkMix_eq, lkO_shl0, lkO_zero, load32, load16, lit_word, big_word, half_word, half_shl0,
      lit_mask3', lit_mask2', lit_mask1', big_mask3', big_mask2', big_mask1', Bool.false_eq_true, if_false, if_true, Nat.add_assoc, Nat.reduceAdd, hashWord_false, hashWord_true, List.getD_cons_zero, List.getD_cons_succ, ← BitVec.add_assoc]
    · rw [if_neg hn, ok_bind]
      subst hl
      exact litMask_switch _ os ts h (by omega) ht hm

theorem litVal_run {mem : List UInt8} : ∀ (fuel p len : Nat) (s : Lk) (os : List UInt8), RdAll mem p os → os.length = len → len < fuel →
    (do let (p, len, s) ← lkLitWordLoop mem fuel p len s; lkLitValSwitch mem p len s) = ok (Spec.hashRegs s (Spec.hashKey false os))
  | 0, _, _, _, _, _, _, hf => absurd hf (by omega)
  | fuel + 1, p, len, (a, b, c), os, h, hl, hf => by
    rw [lkLitWordLoop]
    by_cases hn : len > 12
    · rw [if_pos hn]
      obtain ⟨o0, o1, o2, o3, o4, o5, o6, o7, o8, o9, o10, o11, o, rest, rfl⟩ : ∃ o0 o1 o2 o3 o4 o5 o6 o7 o8 o9 o10 o11 o, ∃ rest : List UInt8, os = o0 :: o1 :: o2 :: o3 :: o4 :: o5 :: o6 :: o7 :: o8 :: o9 :: o10 :: o11 :: o :: rest := by
        match os, hl with
        | o0 :: o1 :: o2 :: o3 :: o4 :: o5 :: o6 :: o7 :: o8 :: o9 :: o10 :: o11 :: o :: rest, _ => exact ⟨_, _, _, _, _, _, _, _, _, _, _, _, _, _, rfl⟩
        | [], hl => simp only [List.length_cons, List.length_nil] at hl; omega
        | [_], hl => simp only [List.length_cons, List.length_nil] at hl; omega
        | [_, _], hl => simp only [List.length_cons, List.length_nil] at hl; omega
        | [_, _, _], hl => simp only [List.length_cons, List.length_nil] at hl; omega
        | [_, _, _, _], hl => simp only [List.length_cons, List.length_nil] at hl; omega
        | [_, _, _, _, _], hl => simp only [List.length_cons, List.length_nil] at hl; omega
        | [_, _, _, _, _, _], hl => simp only [List.length_cons, List.length_nil] at hl; omega
        | [_, _, _, _, _, _, _], hl => simp only [List.length_cons, List.length_nil] at hl; omega
        | [_, _, _, _, _, _, _, _], hl => simp only [List.length_cons, List.length_nil] at hl; omega
        | [_, _, _, _, _, _, _, _, _], hl => simp only [List.length_cons, List.length_nil] at hl; omega
        | [_, _, _, _, _, _, _, _, _, _], hl => simp only [List.length_cons, List.length_nil] at hl; omega
        | [_, _, _, _, _, _, _, _, _, _, _], hl => simp only [List.length_cons, List.length_nil] at hl; omega
        | [_, _, _, _, _, _, _, _, _, _, _, _], hl => simp only [List.length_cons, List.length_nil] at hl; omega
      simp only [List.length_cons] at hl
      have hr : RdAll mem (p + 12) ((o :: rest)) := by
        simp only [RdAll, List.cons_append, Nat.add_assoc, Nat.reduceAdd] at h ⊢
        exact h.2.2.2.2.2.2.2.2.2.2.2.2
      have ih := litVal_run fuel (p + 12) (len - 12) (Spec.mix (a + Spec.hashWord false [o0, o1, o2, o3], b + Spec.hashWord false [o4, o5, o6, o7], c + Spec.hashWord false [o8, o9, o10, o11]))
        (o :: rest) hr (by simp only [List.length_cons]; omega) (by omega)
      obtain ⟨v, vs, hv⟩ := hashKey_cons false o rest
      have e : Spec.hashRegs (a, b, c) (Spec.hashKey false (o0 :: o1 :: o2 :: o3 :: o4 :: o5 :: o6 :: o7 :: o8 :: o9 :: o10 :: o11 :: o :: rest)) = Spec.hashRegs (Spec.mix (a + Spec.hashWord false [o0, o1, o2, o3],
          b + Spec.hashWord false [o4, o5, o6, o7], c + Spec.hashWord false [o8, o9, o10, o11])) (Spec.hashKey false (o :: rest)) := by
        simp only [Spec.hashKey.eq_5]; rw [hv, Spec.hashRegs]
      rw [e, ← ih]
      simp only [RdAll, List.cons_append, Nat.add_assoc, Nat.reduceAdd] at h
      obtain ⟨h0, h1, h2, h3, h4, h5, h6, h7, h8, h9, h10, h11, -⟩ := h
      simp only [h0, h1, h2, h3, h4, h5, h6, h7, h8, h9, h10, h11, ok_bind, lkFinal_eq, lkMix_eq, lkO_shl0, lkO_zero, load32, load16, lit_word, big_word, half_word, half_shl0,
      lit_mask3', lit_mask2', lit_mask1', big_mask3', big_mask2', big_mask1', Bool.false_eq_true, if_false, if_true, Nat.add_assoc, Nat.reduceAdd, hashWord_false, hashWord_true, List.getD_cons_zero, List.getD_cons_succ, ← BitVec.add_assoc]
    · rw [if_neg hn, ok_bind]
      subst hl
      exact litVal_switch _ os h (by omega)

theorem half_run {mem : List UInt8} : ∀ (fuel p len : Nat) (s : Lk) (os : List UInt8), RdAll mem p os → os.length = len → len < fuel →
    (do let (p, len, s) ← lkHalfLoop mem fuel p len s; lkHalfSwitch mem p len s) = ok (Spec.hashRegs s (Spec.hashKey false os))
  | 0, _, _, _, _, _, _, hf => absurd hf (by omega)
  | fuel + 1, p, len, (a, b, c), os, h, hl, hf => by
    rw [lkHalfLoop]
    by_cases hn : len > 12
    · rw [if_pos hn]
      obtain ⟨o0, o1, o2, o3, o4, o5, o6, o7, o8, o9, o10, o11, o, rest, rfl⟩ : ∃ o0 o1 o2 o3 o4 o5 o6 o7 o8 o9 o10 o11 o, ∃ rest : List UInt8, os = o0 :: o1 :: o2 :: o3 :: o4 :: o5 :: o6 :: o7 :: o8 :: o9 :: o10 :: o11 :: o :: rest := by
        match os, hl with
        | o0 :: o1 :: o2 :: o3 :: o4 :: o5 :: o6 :: o7 :: o8 :: o9 :: o10 :: o11 :: o :: rest, _ => exact ⟨_, _, _, _, _, _, _, _, _, _, _, _, _, _, rfl⟩
        | [], hl => simp only [List.length_cons, List.length_nil] at hl; omega
        | [_], hl => simp only [List.length_cons, List.length_nil] at hl; omega
        | [_, _], hl => simp only [List.length_cons, List.length_nil] at hl; omega
        | [_, _, _], hl => simp only [List.length_cons, List.length_nil] at hl; omega
        | [_, _, _, _], hl => simp only [List.length_cons, List.length_nil] at hl; omega
        | [_, _, _, _, _], hl => simp only [List.length_cons, List.length_nil] at hl; omega
        | [_, _, _, _, _, _], hl => simp only [List.length_cons, List.length_nil] at hl; omega
        | [_, _, _, _, _, _, _], hl => simp only [List.length_cons, List.length_nil] at hl; omega
        | [_, _, _, _, _, _, _, _], hl => simp only [List.length_cons, List.length_nil] at hl; omega
        | [_, _, _, _, _, _, _, _, _], hl => simp only [List.length_cons, List.length_nil] at hl; omega
        | [_, _, _, _, _, _, _, _, _, _], hl => simp only [List.length_cons, List.length_nil] at hl; omega
        | [_, _, _, _, _, _, _, _, _, _, _], hl => simp only [List.length_cons, List.length_nil] at hl; omega
        | [_, _, _, _, _, _, _, _, _, _, _, _], hl => simp only [List.length_cons, List.length_nil] at hl; omega
      simp only [List.length_cons] at hl
      have hr : RdAll mem (p + 12) ((o :: rest)) := by
        simp only [RdAll, List.cons_append, Nat.add_assoc, Nat.reduceAdd] at h ⊢
        exact h.2.2.2.2.2.2.2.2.2.2.2.2
      have ih := half_run fuel (p + 12) (len - 12) (Spec.mix (a + Spec.hashWord false [o0, o1, o2, o3], b + Spec.hashWord false [o4, o5, o6, o7], c + Spec.hashWord false [o8, o9, o10, o11]))
        (o :: rest) hr (by simp only [List.length_cons]; omega) (by omega)
      obtain ⟨v, vs, hv⟩ := hashKey_cons false o rest
      have e : Spec.hashRegs (a, b, c) (Spec.hashKey false (o0 :: o1 :: o2 :: o3 :: o4 :: o5 :: o6 :: o7 :: o8 :: o9 :: o10 :: o11 :: o :: rest)) = Spec.hashRegs (Spec.mix (a + Spec.hashWord false [o0, o1, o2, o3],
          b + Spec.hashWord false [o4, o5, o6, o7], c + Spec.hashWord false [o8, o9, o10, o11])) (Spec.hashKey false (o :: rest)) := by
        simp only [Spec.hashKey.eq_5]; rw [hv, Spec.hashRegs]
      rw [e, ← ih]
      simp only [RdAll, List.cons_append, Nat.add_assoc, Nat.reduceAdd] at h
      obtain ⟨h0, h1, h2, h3, h4, h5, h6, h7, h8, h9, h10, h11, -⟩ := h
      simp only [h0, h1, h2, h3, h4, h5, h6, h7, h8, h9, h10, h11, ok_bind, lkFinal_eq, lkMix_eq, lkO_shl0, lkO_zero, load32, load16, lit_word, big_word, half_word, half_shl0,
      lit_mask3', lit_mask2', lit_mask1', big_mask3', big_mask2', big_mask1', Bool.false_eq_true, if_false, if_true, Nat.add_assoc, Nat.reduceAdd, hashWord_false, hashWord_true, List.getD_cons_zero, List.getD_cons_succ, ← BitVec.add_assoc]
    · rw [if_neg hn, ok_bind]
      subst hl
      exact half_switch _ os h (by omega)

theorem litByte_run {mem : List UInt8} : ∀ (fuel p len : Nat) (s : Lk) (os : List UInt8), RdAll mem p os → os.length = len → len < fuel →
    (do let (p, len, s) ← lkLitByteLoop mem fuel p len s; lkLitByteSwitch mem p len s) = ok (Spec.hashRegs s (Spec.hashKey false os))
  | 0, _, _, _, _, _, _, hf => absurd hf (by omega)
  | fuel + 1, p, len, (a, b, c), os, h, hl, hf => by
    rw [lkLitByteLoop]
    by_cases hn : len > 12
    · rw [if_pos hn]
      obtain ⟨o0, o1, o2, o3, o4, o5, o6, o7, o8, o9, o10, o11, o, rest, rfl⟩ : ∃ o0 o1 o2 o3 o4 o5 o6 o7 o8 o9 o10 o11 o, ∃ rest : List UInt8, os = o0 :: o1 :: o2 :: o3 :: o4 :: o5 :: o6 :: o7 :: o8 :: o9 :: o10 :: o11 :: o :: rest := by
        match os, hl with
        | o0 :: o1 :: o2 :: o3 :: o4 :: o5 :: o6 :: o7 :: o8 :: o9 :: o10 :: o11 :: o :: rest, _ => exact ⟨_, _, _, _, _, _, _, _, _, _, _, _, _, _, rfl⟩
        | [], hl => simp only [List.length_cons, List.length_nil] at hl; omega
        | [_], hl => simp only [List.length_cons, List.length_nil] at hl; omega
        | [_, _], hl => simp only [List.length_cons, List.length_nil] at hl; omega
        | [_, _, _], hl => simp only [List.length_cons, List.length_nil] at hl; omega
        | [_, _, _, _], hl => simp only [List.length_cons, List.length_nil] at hl; omega
        | [_, _, _, _, _], hl => simp only [List.length_cons, List.length_nil] at hl; omega
        | [_, _, _, _, _, _], hl => simp only [List.length_cons, List.length_nil] at hl; omega
        | [_, _, _, _, _, _, _], hl => simp only [List.length_cons, List.length_nil] at hl; omega
        | [_, _, _, _, _, _, _, _], hl => simp only [List.length_cons, List.length_nil] at hl; omega
        | [_, _, _, _, _, _, _, _, _], hl => simp only [List.length_cons, List.length_nil] at hl; omega
        | [_, _, _, _, _, _, _, _, _, _], hl => simp only [List.length_cons, List.length_nil] at hl; omega
        | [_, _, _, _, _, _, _, _, _, _, _], hl => simp only [List.length_cons, List.length_nil] at hl; omega
        | [_, _, _, _, _, _, _, _, _, _, _, _], hl => simp only [List.length_cons, List.length_nil] at hl; omega
      simp only [List.length_cons] at hl
      have hr : RdAll mem (p + 12) ((o :: rest)) := by
        simp only [RdAll, List.cons_append, Nat.add_assoc, Nat.reduceAdd] at h ⊢
        exact h.2.2.2.2.2.2.2.2.2.2.2.2
      have ih := litByte_run fuel (p + 12) (len - 12) (Spec.mix (a + Spec.hashWord false [o0, o1, o2, o3], b + Spec.hashWord false [o4, o5, o6, o7], c + Spec.hashWord false [o8, o9, o10, o11]))
        (o :: rest) hr (by simp only [List.length_cons]; omega) (by omega)
      obtain ⟨v, vs, hv⟩ := hashKey_cons false o rest
      have e : Spec.hashRegs (a, b, c) (Spec.hashKey false (o0 :: o1 :: o2 :: o3 :: o4 :: o5 :: o6 :: o7 :: o8 :: o9 :: o10 :: o11 :: o :: rest)) = Spec.hashRegs (Spec.mix (a + Spec.hashWord false [o0, o1, o2, o3],
          b + Spec.hashWord false [o4, o5, o6, o7], c + Spec.hashWord false [o8, o9, o10, o11])) (Spec.hashKey false (o :: rest)) := by
        simp only [Spec.hashKey.eq_5]; rw [hv, Spec.hashRegs]
      rw [e, ← ih]
      simp only [RdAll, List.cons_append, Nat.add_assoc, Nat.reduceAdd] at h
      obtain ⟨h0, h1, h2, h3, h4, h5, h6, h7, h8, h9, h10, h11, -⟩ := h
      simp only [h0, h1, h2, h3, h4, h5, h6, h7, h8, h9, h10, h11, ok_bind, lkFinal_eq, lkMix_eq, lkO_shl0, lkO_zero, load32, load16, lit_word, big_word, half_word, half_shl0,
      lit_mask3', lit_mask2', lit_mask1', big_mask3', big_mask2', big_mask1', Bool.false_eq_true, if_false, if_true, Nat.add_assoc, Nat.reduceAdd, hashWord_false, hashWord_true, List.getD_cons_zero, List.getD_cons_succ, ← BitVec.add_assoc]
    · rw [if_neg hn, ok_bind]
      subst hl
      exact litByte_switch _ os h (by omega)

theorem bigMask_run {mem : List UInt8} : ∀ (fuel p len : Nat) (s : Lk) (os ts : List UInt8), RdAll mem p (os ++ ts) → os.length = len → ts.length < 4 → (len + ts.length) % 4 = 0 → len < fuel →
    (do let (p, len, s) ← lkBigWordLoop mem fuel p len s; lkBigMaskSwitch mem p len s) = ok (Spec.hashRegs s (Spec.hashKey true os))
  | 0, _, _, _, _, _, _, _, _, _, hf => absurd hf (by omega)
  | fuel + 1, p, len, (a, b, c), os, ts, h, hl, ht, hm, hf => by
    rw [lkBigWordLoop]
    by_cases hn : len > 12
    · rw [if_pos hn]
      obtain ⟨o0, o1, o2, o3, o4, o5, o6, o7, o8, o9, o10, o11, o, rest, rfl⟩ : ∃ o0 o1 o2 o3 o4 o5 o6 o7 o8 o9 o10 o11 o, ∃ rest : List UInt8, os = o0 :: o1 :: o2 :: o3 :: o4 :: o5 :: o6 :: o7 :: o8 :: o9 :: o10 :: o11 :: o :: rest := by
        match os, hl with
        | o0 :: o1 :: o2 :: o3 :: o4 :: o5 :: o6 :: o7 :: o8 :: o9 :: o10 :: o11 :: o :: rest, _ => exact ⟨_, _, _, _, _, _, _, _, _, _, _, _, _, _, rfl⟩
        | [], hl => simp only [List.length_cons, List.length_nil] at hl; omega
        | [_], hl => simp only [List.length_cons, List.length_nil] at hl; omega
        | [_, _], hl => simp only [List.length_cons, List.length_nil] at hl; omega
        | [_, _, _], hl => simp only [List.length_cons, List.length_nil] at hl; omega
        | [_, _, _, _], hl => simp only [List.length_cons, List.length_nil] at hl; omega
        | [_, _, _, _, _], hl => simp only [List.length_cons, List.length_nil] at hl; omega
        | [_, _, _, _, _, _], hl => simp only [List.length_cons, List.length_nil] at hl; omega
        | [_, _, _, _, _, _, _], hl => simp only [List.length_cons, List.length_nil] at hl; omega
        | [_, _, _, _, _, _, _, _], hl => simp only [List.length_cons, List.length_nil] at hl; omega
        | [_, _, _, _, _, _, _, _, _], hl => simp only [List.length_cons, List.length_nil] at hl; omega
        | [_, _, _, _, _, _, _, _, _, _], hl => simp only [List.length_cons, List.length_nil] at hl; omega
        | [_, _, _, _, _, _, _, _, _, _, _], hl => simp only [List.length_cons, List.length_nil] at hl; omega
        | [_, _, _, _, _, _, _, _, _, _, _, _], hl => simp only [List.length_cons, List.length_nil] at hl; omega
      simp only [List.length_cons] at hl
      have hr : RdAll mem (p + 12) ((o :: rest) ++ ts) := by
        simp only [RdAll, List.cons_append, Nat.add_assoc, Nat.reduceAdd] at h ⊢
        exact h.2.2.2.2.2.2.2.2.2.2.2.2
      have ih := bigMask_run fuel (p + 12) (len - 12) (Spec.mix (a + Spec.hashWord true [o0, o1, o2, o3], b + Spec.hashWord true [o4, o5, o6, o7], c + Spec.hashWord true [o8, o9, o10, o11]))
        (o :: rest) ts hr (by simp only [List.length_cons]; omega) ht (by omega) (by omega)
      obtain ⟨v, vs, hv⟩ := hashKey_cons true o rest
      have e : Spec.hashRegs (a, b, c) (Spec.hashKey true (o0 :: o1 :: o2 :: o3 :: o4 :: o5 :: o6 :: o7 :: o8 :: o9 :: o10 :: o11 :: o :: rest)) = Spec.hashRegs (Spec.mix (a + Spec.hashWord true [o0, o1, o2, o3],
          b + Spec.hashWord true [o4, o5, o6, o7], c + Spec.hashWord true [o8, o9, o10, o11])) (Spec.hashKey true (o :: rest)) := by
        simp only [Spec.hashKey.eq_5]; rw [hv, Spec.hashRegs]
      rw [e, ← ih]
      simp only [RdAll, List.cons_append, Nat.add_assoc, Nat.reduceAdd] at h
      obtain ⟨h0, h1, h2, h3, h4, h5, h6, h7, h8, h9, h10, h11, -⟩ := h
      simp only [h0, h1, h2, h3, h4, h5, h6, h7, h8, h9, h10, h11, ok_bind, lkFinal_eq, lkMix_eq, lkO_shl0, lkO_zero, load32, load16, lit_word, big_word, half_word, half_shl0,
      lit_mask3', lit_mask2', lit_mask1', big_mask3', big_mask2', big_mask1', Bool.false_eq_true, if_false, if_true, Nat.add_assoc, Nat.reduceAdd, hashWord_false, hashWord_true, List.getD_cons_zero, List.getD_cons_succ, ← BitVec.add_assoc]
    · rw [if_neg hn, ok_bind]
      subst hl
      exact bigMask_switch _ os ts h (by omega) ht hm

theorem bigVal_run {mem : List UInt8} : ∀ (fuel p len : Nat) (s : Lk) (os : List UInt8), RdAll mem p os → os.length = len → len < fuel →
    (do let (p, len, s) ← lkBigWordLoop mem fuel p len s; lkBigValSwitch mem p len s) = ok (Spec.hashRegs s (Spec.hashKey true os))
  | 0, _, _, _, _, _, _, hf => absurd hf (by omega)
  | fuel + 1, p, len, (a, b, c), os, h, hl, hf => by
    rw [lkBigWordLoop]
    by_cases hn : len > 12
    · rw [if_pos hn]
      obtain ⟨o0, o1, o2, o3, o4, o5, o6, o7, o8, o9, o10, o11, o, rest, rfl⟩ : ∃ o0 o1 o2 o3 o4 o5 o6 o7 o8 o9 o10 o11 o, ∃ rest : List UInt8, os = o0 :: o1 :: o2 :: o3 :: o4 :: o5 :: o6 :: o7 :: o8 :: o9 :: o10 :: o11 :: o :: rest := by
        match os, hl with
        | o0 :: o1 :: o2 :: o3 :: o4 :: o5 :: o6 :: o7 :: o8 :: o9 :: o10 :: o11 :: o :: rest, _ => exact ⟨_, _, _, _, _, _, _, _, _, _, _, _, _, _, rfl⟩
        | [], hl => simp only [List.length_cons, List.length_nil] at hl; omega
        | [_], hl => simp only [List.length_cons, List.length_nil] at hl; omega
        | [_, _], hl => simp only [List.length_cons, List.length_nil] at hl; omega
        | [_, _, _], hl => simp only [List.length_cons, List.length_nil] at hl; omega
        | [_, _, _, _], hl => simp only [List.length_cons, List.length_nil] at hl; omega
        | [_, _, _, _, _], hl => simp only [List.length_cons, List.length_nil] at hl; omega
        | [_, _, _, _, _, _], hl => simp only [List.length_cons, List.length_nil] at hl; omega
        | [_, _, _, _, _, _, _], hl => simp only [List.length_cons, List.length_nil] at hl; omega
        | [_, _, _, _, _, _, _, _], hl => simp only [List.length_cons, List.length_nil] at hl; omega
        | [_, _, _, _, _, _, _, _, _], hl => simp only [List.length_cons, List.length_nil] at hl; omega
        | [_, _, _, _, _, _, _, _, _, _], hl => simp only [List.length_cons, List.length_nil] at hl; omega
        | [_, _, _, _, _, _, _, _, _, _, _], hl => simp only [List.length_cons, List.length_nil] at hl; omega
        | [_, _, _, _, _, _, _, _, _, _, _, _], hl => simp only [List.length_cons, List.length_nil] at hl; omega
      simp only [List.length_cons] at hl
      have hr : RdAll mem (p + 12) ((o :: rest)) := by
        simp only [RdAll, List.cons_append, Nat.add_assoc, Nat.reduceAdd] at h ⊢
        exact h.2.2.2.2.2.2.2.2.2.2.2.2
      have ih := bigVal_run fuel (p + 12) (len - 12) (Spec.mix (a + Spec.hashWord true [o0, o1, o2, o3], b + Spec.hashWord true [o4, o5, o6, o7], c + Spec.hashWord true [o8, o9, o10, o11]))
        (o :: rest) hr (by simp only [List.length_cons]; omega) (by omega)
      obtain ⟨v, vs, hv⟩ := hashKey_cons true o rest
      have e : Spec.hashRegs (a, b, c) (Spec.hashKey true (o0 :: o1 :: o2 :: o3 :: o4 :: o5 :: o6 :: o7 :: o8 :: o9 :: o10 :: o11 :: o :: rest)) = Spec.hashRegs (Spec.mix (a + Spec.hashWord true [o0, o1, o2, o3],
          b + Spec.hashWord true [o4, o5, o6, o7], c + Spec.hashWord true [o8, o9, o10, o11])) (Spec.hashKey true (o :: rest)) := by
        simp only [Spec.hashKey.eq_5]; rw [hv, Spec.hashRegs]
      rw [e, ← ih]
      simp only [RdAll, List.cons_append, Nat.add_assoc, Nat.reduceAdd] at h
      obtain ⟨h0, h1, h2, h3, h4, h5, h6, h7, h8, h9, h10, h11, -⟩ := h
      simp only [h0, h1, h2, h3, h4, h5, h6, h7, h8, h9, h10, h11, ok_bind, lkFinal_eq, lkMix_eq, lkO_shl0, lkO_zero, load32, load16, lit_word, big_word, half_word, half_shl0,
      lit_mask3', lit_mask2', lit_mask1', big_mask3', big_mask2', big_mask1', Bool.false_eq_true, if_false, if_true, Nat.add_assoc, Nat.reduceAdd, hashWord_false, hashWord_true, List.getD_cons_zero, List.getD_cons_succ, ← BitVec.add_assoc]
    · rw [if_neg hn, ok_bind]
      subst hl
      exact bigVal_switch _ os h (by omega)

theorem bigByte_run {mem : List UInt8} : ∀ (fuel p len : Nat) (s : Lk) (os : List UInt8), RdAll mem p os → os.length = len → len < fuel →
    (do let (p, len, s) ← lkBigByteLoop mem fuel p len s; lkBigByteSwitch mem p len s) = ok (Spec.hashRegs s (Spec.hashKey true os))
  | 0, _, _, _, _, _, _, hf => absurd hf (by omega)
  | fuel + 1, p, len, (a, b, c), os, h, hl, hf => by
    rw [lkBigByteLoop]
    by_cases hn : len > 12
    · rw [if_pos hn]
      obtain ⟨o0, o1, o2, o3, o4, o5, o6, o7, o8, o9, o10, o11, o, rest, rfl⟩ : ∃ o0 o1 o2 o3 o4 o5 o6 o7 o8 o9 o10 o11 o, ∃ rest : List UInt8, os = o0 :: o1 :: o2 :: o3 :: o4 :: o5 :: o6 :: o7 :: o8 :: o9 :: o10 :: o11 :: o :: rest := by
        match os, hl with
        | o0 :: o1 :: o2 :: o3 :: o4 :: o5 :: o6 :: o7 :: o8 :: o9 :: o10 :: o11 :: o :: rest, _ => exact ⟨_, _, _, _, _, _, _, _, _, _, _, _, _, _, rfl⟩
        | [], hl => simp only [List.length_cons, List.length_nil] at hl; omega
        | [_], hl => simp only [List.length_cons, List.length_nil] at hl; omega
        | [_, _], hl => simp only [List.length_cons, List.length_nil] at hl; omega
        | [_, _, _], hl => simp only [List.length_cons, List.length_nil] at hl; omega
        | [_, _, _, _], hl => simp only [List.length_cons, List.length_nil] at hl; omega
        | [_, _, _, _, _], hl => simp only [List.length_cons, List.length_nil] at hl; omega
        | [_, _, _, _, _, _], hl => simp only [List.length_cons, List.length_nil] at hl; omega
        | [_, _, _, _, _, _, _], hl => simp only [List.length_cons, List.length_nil] at hl; omega
        | [_, _, _, _, _, _, _, _], hl => simp only [List.length_cons, List.length_nil] at hl; omega
        | [_, _, _, _, _, _, _, _, _], hl => simp only [List.length_cons, List.length_nil] at hl; omega
        | [_, _, _, _, _, _, _, _, _, _], hl => simp only [List.length_cons, List.length_nil] at hl; omega
        | [_, _, _, _, _, _, _, _, _, _, _], hl => simp only [List.length_cons, List.length_nil] at hl; omega
        | [_, _, _, _, _, _, _, _, _, _, _, _], hl => simp only [List.length_cons, List.length_nil] at hl; omega
      simp only [List.length_cons] at hl
      have hr : RdAll mem (p + 12) ((o :: rest)) := by
        simp only [RdAll, List.cons_append, Nat.add_assoc, Nat.reduceAdd] at h ⊢
        exact h.2.2.2.2.2.2.2.2.2.2.2.2
      have ih := bigByte_run fuel (p + 12) (len - 12) (Spec.mix (a + Spec.hashWord true [o0, o1, o2, o3], b + Spec.hashWord true [o4, o5, o6, o7], c + Spec.hashWord true [o8, o9, o10, o11]))
        (o :: rest) hr (by simp only [List.length_cons]; omega) (by omega)
      obtain ⟨v, vs, hv⟩ := hashKey_cons true o rest
      have e : Spec.hashRegs (a, b, c) (Spec.hashKey true (o0 :: o1 :: o2 :: o3 :: o4 :: o5 :: o6 :: o7 :: o8 :: o9 :: o10 :: o11 :: o :: rest)) = Spec.hashRegs (Spec.mix (a + Spec.hashWord true [o0, o1, o2, o3],
          b + Spec.hashWord true [o4, o5, o6, o7], c + Spec.hashWord true [o8, o9, o10, o11])) (Spec.hashKey true (o :: rest)) := by
        simp only [Spec.hashKey.eq_5]; rw [hv, Spec.hashRegs]
      rw [e, ← ih]
      simp only [RdAll, List.cons_append, Nat.add_assoc, Nat.reduceAdd] at h
      obtain ⟨h0, h1, h2, h3, h4, h5, h6, h7, h8, h9, h10, h11, -⟩ := h
      simp only [h0, h1, h2, h3, h4, h5, h6, h7, h8, h9, h10, h11, ok_bind, lkFinal_eq, lkMix_eq, lkO_shl0, lkO_zero, load32, load16, lit_word, big_word, half_word, half_shl0,
      lit_mask3', lit_mask2', lit_mask1', big_mask3', big_mask2', big_mask1', Bool.false_eq_true, if_false, if_true, Nat.add_assoc, Nat.reduceAdd, hashWord_false, hashWord_true, List.getD_cons_zero, List.getD_cons_succ, ← BitVec.add_assoc]
    · rw [if_neg hn, ok_bind]
      subst hl
      exact bigByte_switch _ os h (by omega)

theorem litMask_over {mem : List UInt8} : ∀ (fuel p len : Nat) (s : Lk) (os : List UInt8), RdAll mem p os → os.length = len → mem.length = p + len → len % 4 ≠ 0 → len < fuel →
    (do let (p, len, s) ← lkLitWordLoop mem fuel p len s; lkLitMaskSwitch mem p len s) = ub
  | 0, _, _, _, _, _, _, _, _, hf => absurd hf (by omega)
  | fuel + 1, p, len, (a, b, c), os, h, hl, he, hm, hf => by
    rw [lkLitWordLoop]
    by_cases hn : len > 12
    · rw [if_pos hn]
      obtain ⟨o0, o1, o2, o3, o4, o5, o6, o7, o8, o9, o10, o11, o, rest, rfl⟩ : ∃ o0 o1 o2 o3 o4 o5 o6 o7 o8 o9 o10 o11 o, ∃ rest : List UInt8, os = o0 :: o1 :: o2 :: o3 :: o4 :: o5 :: o6 :: o7 :: o8 :: o9 :: o10 :: o11 :: o :: rest := by
        match os, hl with
        | o0 :: o1 :: o2 :: o3 :: o4 :: o5 :: o6 :: o7 :: o8 :: o9 :: o10 :: o11 :: o :: rest, _ => exact ⟨_, _, _, _, _, _, _, _, _, _, _, _, _, _, rfl⟩
        | [], hl => simp only [List.length_cons, List.length_nil] at hl; omega
        | [_], hl => simp only [List.length_cons, List.length_nil] at hl; omega
        | [_, _], hl => simp only [List.length_cons, List.length_nil] at hl; omega
        | [_, _, _], hl => simp only [List.length_cons, List.length_nil] at hl; omega
        | [_, _, _, _], hl => simp only [List.length_cons, List.length_nil] at hl; omega
        | [_, _, _, _, _], hl => simp only [List.length_cons, List.length_nil] at hl; omega
        | [_, _, _, _, _, _], hl => simp only [List.length_cons, List.length_nil] at hl; omega
        | [_, _, _, _, _, _, _], hl => simp only [List.length_cons, List.length_nil] at hl; omega
        | [_, _, _, _, _, _, _, _], hl => simp only [List.length_cons, List.length_nil] at hl; omega
        | [_, _, _, _, _, _, _, _, _], hl => simp only [List.length_cons, List.length_nil] at hl; omega
        | [_, _, _, _, _, _, _, _, _, _], hl => simp only [List.length_cons, List.length_nil] at hl; omega
        | [_, _, _, _, _, _, _, _, _, _, _], hl => simp only [List.length_cons, List.length_nil] at hl; omega
        | [_, _, _, _, _, _, _, _, _, _, _, _], hl => simp only [List.length_cons, List.length_nil] at hl; omega
      simp only [List.length_cons] at hl
      have hr : RdAll mem (p + 12) (o :: rest) := by
        simp only [RdAll, Nat.add_assoc, Nat.reduceAdd] at h ⊢
        exact h.2.2.2.2.2.2.2.2.2.2.2.2
      simp only [RdAll, Nat.add_assoc, Nat.reduceAdd] at h
      obtain ⟨h0, h1, h2, h3, h4, h5, h6, h7, h8, h9, h10, h11, -⟩ := h
      simp only [load32, h0, h1, h2, h3, h4, h5, h6, h7, h8, h9, h10, h11, Nat.add_assoc, Nat.reduceAdd, ok_bind, Bool.false_eq_true, if_false, if_true]
      exact litMask_over fuel (p + 12) (len - 12) _ (o :: rest) hr (by simp only [List.length_cons]; omega) (by omega) (by omega) (by omega)
    · rw [if_neg hn, ok_bind]
      dsimp only
      subst hl
      have hub : rd mem (p + os.length) = ub := by
        unfold rd
        rw [List.getElem?_eq_none (by omega)]
      match os, h, hn, hm, hub with
      | [], _, _, hm, _ => exact absurd (by simp) hm
      | [o0], h, _, hm, hub =>
        simp only [RdAll, Nat.add_assoc, Nat.reduceAdd] at h
        simp only [List.length_cons, List.length_nil, Nat.reduceAdd] at hub
        simp only [List.length_cons, List.length_nil, lkLitMaskSwitch, lkLitMask1, h, hub, load32, Nat.add_assoc, Nat.reduceAdd, ok_bind, ub_bind]
      | [o0, o1], h, _, hm, hub =>
        simp only [RdAll, Nat.add_assoc, Nat.reduceAdd] at h
        simp only [List.length_cons, List.length_nil, Nat.reduceAdd] at hub
        simp only [List.length_cons, List.length_nil, lkLitMaskSwitch, lkLitMask2, h, hub, load32, Nat.add_assoc, Nat.reduceAdd, ok_bind, ub_bind]
      | [o0, o1, o2], h, _, hm, hub =>
        simp only [RdAll, Nat.add_assoc, Nat.reduceAdd] at h
        simp only [List.length_cons, List.length_nil, Nat.reduceAdd] at hub
        simp only [List.length_cons, List.length_nil, lkLitMaskSwitch, lkLitMask3, h, hub, load32, Nat.add_assoc, Nat.reduceAdd, ok_bind, ub_bind]
      | [o0, o1, o2, o3], h, _, hm, hub =>
        exact absurd (by simp) hm
      | [o0, o1, o2, o3, o4], h, _, hm, hub =>
        simp only [RdAll, Nat.add_assoc, Nat.reduceAdd] at h
        simp only [List.length_cons, List.length_nil, Nat.reduceAdd] at hub
        simp only [List.length_cons, List.length_nil, lkLitMaskSwitch, lkLitMask5, h, hub, load32, Nat.add_assoc, Nat.reduceAdd, ok_bind, ub_bind]
      | [o0, o1, o2, o3, o4, o5], h, _, hm, hub =>
        simp only [RdAll, Nat.add_assoc, Nat.reduceAdd] at h
        simp only [List.length_cons, List.length_nil, Nat.reduceAdd] at hub
        simp only [List.length_cons, List.length_nil, lkLitMaskSwitch, lkLitMask6, h, hub, load32, Nat.add_assoc, Nat.reduceAdd, ok_bind, ub_bind]
      | [o0, o1, o2, o3, o4, o5, o6], h, _, hm, hub =>
        simp only [RdAll, Nat.add_assoc, Nat.reduceAdd] at h
        simp only [List.length_cons, List.length_nil, Nat.reduceAdd] at hub
        simp only [List.length_cons, List.length_nil, lkLitMaskSwitch, lkLitMask7, h, hub, load32, Nat.add_assoc, Nat.reduceAdd, ok_bind, ub_bind]
      | [o0, o1, o2, o3, o4, o5, o6, o7], h, _, hm, hub =>
        exact absurd (by simp) hm
      | [o0, o1, o2, o3, o4, o5, o6, o7, o8], h, _, hm, hub =>
        simp only [RdAll, Nat.add_assoc, Nat.reduceAdd] at h
        simp only [List.length_cons, List.length_nil, Nat.reduceAdd] at hub
        simp only [List.length_cons, List.length_nil, lkLitMaskSwitch, lkLitMask9, h, hub, load32, Nat.add_assoc, Nat.reduceAdd, ok_bind, ub_bind]
      | [o0, o1, o2, o3, o4, o5, o6, o7, o8, o9], h, _, hm, hub =>
        simp only [RdAll, Nat.add_assoc, Nat.reduceAdd] at h
        simp only [List.length_cons, List.length_nil, Nat.reduceAdd] at hub
        simp only [List.length_cons, List.length_nil, lkLitMaskSwitch, lkLitMask10, h, hub, load32, Nat.add_assoc, Nat.reduceAdd, ok_bind, ub_bind]
      | [o0, o1, o2, o3, o4, o5, o6, o7, o8, o9, o10], h, _, hm, hub =>
        simp only [RdAll, Nat.add_assoc, Nat.reduceAdd] at h
        simp only [List.length_cons, List.length_nil, Nat.reduceAdd] at hub
        simp only [List.length_cons, List.length_nil, lkLitMaskSwitch, lkLitMask11, h, hub, load32, Nat.add_assoc, Nat.reduceAdd, ok_bind, ub_bind]
      | [o0, o1, o2, o3, o4, o5, o6, o7, o8, o9, o10, o11], h, _, hm, hub =>
        exact absurd (by simp) hm
      | _ :: _ :: _ :: _ :: _ :: _ :: _ :: _ :: _ :: _ :: _ :: _ :: _ :: _, _, hn, _, _ => simp only [List.length_cons] at hn; omega

theorem bigMask_over {mem : List UInt8} : ∀ (fuel p len : Nat) (s : Lk) (os : List UInt8), RdAll mem p os → os.length = len → mem.length = p + len → len % 4 ≠ 0 → len < fuel →
    (do let (p, len, s) ← lkBigWordLoop mem fuel p len s; lkBigMaskSwitch mem p len s) = ub
  | 0, _, _, _, _, _, _, _, _, hf => absurd hf (by omega)
  | fuel + 1, p, len, (a, b, c), os, h, hl, he, hm, hf => by
    rw [lkBigWordLoop]
    by_cases hn : len > 12
    · rw [if_pos hn]
      obtain ⟨o0, o1, o2, o3, o4, o5, o6, o7, o8, o9, o10, o11, o, rest, rfl⟩ : ∃ o0 o1 o2 o3 o4 o5 o6 o7 o8 o9 o10 o11 o, ∃ rest : List UInt8, os = o0 :: o1 :: o2 :: o3 :: o4 :: o5 :: o6 :: o7 :: o8 :: o9 :: o10 :: o11 :: o :: rest := by
        match os, hl with
        | o0 :: o1 :: o2 :: o3 :: o4 :: o5 :: o6 :: o7 :: o8 :: o9 :: o10 :: o11 :: o :: rest, _ => exact ⟨_, _, _, _, _, _, _, _, _, _, _, _, _, _, rfl⟩
        | [], hl => simp only [List.length_cons, List.length_nil] at hl; omega
        | [_], hl => simp only [List.length_cons, List.length_nil] at hl; omega
        | [_, _], hl => simp only [List.length_cons, List.length_nil] at hl; omega
        | [_, _, _], hl => simp only [List.length_cons, List.length_nil] at hl; omega
        | [_, _, _, _], hl => simp only [List.length_cons, List.length_nil] at hl; omega
        | [_, _, _, _, _], hl => simp only [List.length_cons, List.length_nil] at hl; omega
        | [_, _, _, _, _, _], hl => simp only [List.length_cons, List.length_nil] at hl; omega
        | [_, _, _, _, _, _, _], hl => simp only [List.length_cons, List.length_nil] at hl; omega
        | [_, _, _, _, _, _, _, _], hl => simp only [List.length_cons, List.length_nil] at hl; omega
        | [_, _, _, _, _, _, _, _, _], hl => simp only [List.length_cons, List.length_nil] at hl; omega
        | [_, _, _, _, _, _, _, _, _, _], hl => simp only [List.length_cons, List.length_nil] at hl; omega
        | [_, _, _, _, _, _, _, _, _, _, _], hl => simp only [List.length_cons, List.length_nil] at hl; omega
        | [_, _, _, _, _, _, _, _, _, _, _, _], hl => simp only [List.length_cons, List.length_nil] at hl; omega
      simp only [List.length_cons] at hl
      have hr : RdAll mem (p + 12) (o :: rest) := by
        simp only [RdAll, Nat.add_assoc, Nat.reduceAdd] at h ⊢
        exact h.2.2.2.2.2.2.2.2.2.2.2.2
      simp only [RdAll, Nat.add_assoc, Nat.reduceAdd] at h
      obtain ⟨h0, h1, h2, h3, h4, h5, h6, h7, h8, h9, h10, h11, -⟩ := h
      simp only [load32, h0, h1, h2, h3, h4, h5, h6, h7, h8, h9, h10, h11, Nat.add_assoc, Nat.reduceAdd, ok_bind, Bool.false_eq_true, if_false, if_true]
      exact bigMask_over fuel (p + 12) (len - 12) _ (o :: rest) hr (by simp only [List.length_cons]; omega) (by omega) (by omega) (by omega)
    · rw [if_neg hn, ok_bind]
      dsimp only
      subst hl
      have hub : rd mem (p + os.length) = ub := by
        unfold rd
        rw [List.getElem?_eq_none (by omega)]
      match os, h, hn, hm, hub with
      | [], _, _, hm, _ => exact absurd (by simp) hm
      | [o0], h, _, hm, hub =>
        simp only [RdAll, Nat.add_assoc, Nat.reduceAdd] at h
        simp only [List.length_cons, List.length_nil, Nat.reduceAdd] at hub
        simp only [List.length_cons, List.length_nil, lkBigMaskSwitch, lkBigMask1, h, hub, load32, Nat.add_assoc, Nat.reduceAdd, ok_bind, ub_bind]
      | [o0, o1], h, _, hm, hub =>
        simp only [RdAll, Nat.add_assoc, Nat.reduceAdd] at h
        simp only [List.length_cons, List.length_nil, Nat.reduceAdd] at hub
        simp only [List.length_cons, List.length_nil, lkBigMaskSwitch, lkBigMask2, h, hub, load32, Nat.add_assoc, Nat.reduceAdd, ok_bind, ub_bind]
      | [o0, o1, o2], h, _, hm, hub =>
        simp only [RdAll, Nat.add_assoc, Nat.reduceAdd] at h
        simp only [List.length_cons, List.length_nil, Nat.reduceAdd] at hub
        simp only [List.length_cons, List.length_nil, lkBigMaskSwitch, lkBigMask3, h, hub, load32, Nat.add_assoc, Nat.reduceAdd, ok_bind, ub_bind]
      | [o0, o1, o2, o3], h, _, hm, hub =>
        exact absurd (by simp) hm
      | [o0, o1, o2, o3, o4], h, _, hm, hub =>
        simp only [RdAll, Nat.add_assoc, Nat.reduceAdd] at h
        simp only [List.length_cons, List.length_nil, Nat.reduceAdd] at hub
        simp only [List.length_cons, List.length_nil, lkBigMaskSwitch, lkBigMask5, h, hub, load32, Nat.add_assoc, Nat.reduceAdd, ok_bind, ub_bind]
      | [o0, o1, o2, o3, o4, o5], h, _, hm, hub =>
        simp only [RdAll, Nat.add_assoc, Nat.reduceAdd] at h
        simp only [List.length_cons, List.length_nil, Nat.reduceAdd] at hub
        simp only [List.length_cons, List.length_nil, lkBigMaskSwitch, lkBigMask6, h, hub, load32, Nat.add_assoc, Nat.reduceAdd, ok_bind, ub_bind]
      | [o0, o1, o2, o3, o4, o5, o6], h, _, hm, hub =>
        simp only [RdAll, Nat.add_assoc, Nat.reduceAdd] at h
        simp only [List.length_cons, List.length_nil, Nat.reduceAdd] at hub
        simp only [List.length_cons, List.length_nil, lkBigMaskSwitch, lkBigMask7, h, hub, load32, Nat.add_assoc, Nat.reduceAdd, ok_bind, ub_bind]
      | [o0, o1, o2, o3, o4, o5, o6, o7], h, _, hm, hub =>
        exact absurd (by simp) hm
      | [o0, o1, o2, o3, o4, o5, o6, o7, o8], h, _, hm, hub =>
        simp only [RdAll, Nat.add_assoc, Nat.reduceAdd] at h
        simp only [List.length_cons, List.length_nil, Nat.reduceAdd] at hub
        simp only [List.length_cons, List.length_nil, lkBigMaskSwitch, lkBigMask9, h, hub, load32, Nat.add_assoc, Nat.reduceAdd, ok_bind, ub_bind]
      | [o0, o1, o2, o3, o4, o5, o6, o7, o8, o9], h, _, hm, hub =>
        simp only [RdAll, Nat.add_assoc, Nat.reduceAdd] at h
        simp only [List.length_cons, List.length_nil, Nat.reduceAdd] at hub
        simp only [List.length_cons, List.length_nil, lkBigMaskSwitch, lkBigMask10, h, hub, load32, Nat.add_assoc, Nat.reduceAdd, ok_bind, ub_bind]
      | [o0, o1, o2, o3, o4, o5, o6, o7, o8, o9, o10], h, _, hm, hub =>
        simp only [RdAll, Nat.add_assoc, Nat.reduceAdd] at h
        simp only [List.length_cons, List.length_nil, Nat.reduceAdd] at hub
        simp only [List.length_cons, List.length_nil, lkBigMaskSwitch, lkBigMask11, h, hub, load32, Nat.add_assoc, Nat.reduceAdd, ok_bind, ub_bind]
      | [o0, o1, o2, o3, o4, o5, o6, o7, o8, o9, o10, o11], h, _, hm, hub =>
        exact absurd (by simp) hm
      | _ :: _ :: _ :: _ :: _ :: _ :: _ :: _ :: _ :: _ :: _ :: _ :: _ :: _, _, hn, _, _ => simp only [List.length_cons] at hn; omega

end Wdns
