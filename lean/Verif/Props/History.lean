import Verif.Spec.History
import Verif.Props.Heap
import Verif.Props.TextHeap
import Verif.Props.RecordOrder

/-!
# C130: whatever a program does with the library, blocks and objects correspond
-/

namespace Wdns
open Outcome Wdns.Spec

/-- What clearing relies on. -/
def Held.Ok : Held → Prop
  | .msg m => ∀ a ∈ m.sections, a.Ok
  | .set s => s.items ≠ [] → s.rdatas.isSome = true
  | .block _ => True

theorem ok_of_perm {h : Heap} {X : List Nat} (hw : h.Wf) (hp : h.live.Perm X) : Owns h X := ⟨hw.1, hw.2, hp⟩

/-- One call keeps blocks and objects together. -/
theorem call_inv {h h' : Heap} {L L' : List Held} (hc : Call h L h' L') (hw : h.Wf) (hp : h.live.Perm (L.flatMap Held.blocks)) (ho : ∀ x ∈ L, Held.Ok x) :
    h'.live.Nodup ∧ h'.live.Perm (L'.flatMap Held.blocks) ∧ ∀ x ∈ L', Held.Ok x := by
  have fresh : ∀ {b : Nat}, h.next ≤ b → (b :: h.live).Nodup := fun {b} hb =>
    List.nodup_cons.mpr ⟨fun hm => by have := hw.2 b hm; omega, hw.1⟩
  have push : ∀ {b n : Nat} {h' : Heap}, h' = ⟨n, b :: h.live⟩ → h.next ≤ b → h'.live.Nodup ∧ h'.live.Perm ((Held.block b :: L).flatMap Held.blocks) ∧
      ∀ x ∈ Held.block b :: L, Held.Ok x := by
    rintro b n h' rfl hb
    exact ⟨fresh hb, by simpa [List.flatMap_cons, Held.blocks] using hp, fun x hx => (List.mem_cons.mp hx).elim (fun e => e ▸ trivial) (ho x)⟩
  cases hc with
  | @parse mem len _ r m _ _ e =>
    have hs := hParseMessage_sim (mem := mem) (len := len) (ok_of_perm hw hp)
    rw [e] at hs
    cases hq : parseMessage mem len <;> rw [hq] at hs <;> rcases r with r | r <;> simp only [SimT] at hs
    · obtain ⟨_, h1, h2⟩ := hs
      exact ⟨h2.1, h2.2.2, fun x hx => (List.mem_cons.mp hx).elim (fun e => e ▸ h1) (ho x)⟩
    · obtain ⟨_, h1, h2, h3⟩ := hs
      have hb : m.blocks = [] := by
        simp only [HMsg.blocks, h1, Option.toList_none, List.nil_append, List.flatMap_eq_nil_iff]
        intro a ha
        rw [h2 a ha]; rfl
      refine ⟨h3.1, by simp only [List.flatMap_cons, Held.blocks, hb, List.nil_append]; exact h3.2.2, fun x hx => (List.mem_cons.mp hx).elim (fun e => e ▸ fun a ha => ?_) (ho x)⟩
      rw [h2 a ha]; exact HArr.empty_ok
  | @deserialize le buf sz _ r s _ _ e =>
    have hs := hDeserializeRrset_sim (le := le) (buf := buf) (sz := sz) (ok_of_perm hw hp)
    rw [e] at hs
    cases hq : deserializeRrset le buf sz <;> rw [hq] at hs <;> rcases r with r | r <;> simp only [SimD] at hs
    · obtain ⟨_, h1, h2⟩ := hs
      exact ⟨h2.1, h2.2.2, fun x hx => (List.mem_cons.mp hx).elim (fun e => e ▸ h1.2.1) (ho x)⟩
    · obtain ⟨_, h1, h2, _, h3⟩ := hs
      exact ⟨h3.1, by simp only [List.flatMap_cons, Held.blocks, h1, List.nil_append]; exact h3.2.2, fun x hx => (List.mem_cons.mp hx).elim (fun e => e ▸ fun h => absurd h2 h) (ho x)⟩
  | @name s d _ n b _ _ e =>
    have key := C76_str_to_name s d h
    rw [e] at key
    split at key
    · obtain ⟨b', k1, k2⟩ := key; cases k1; exact push rfl k2
    · obtain ⟨_, k⟩ := key; cases k
    all_goals cases key
  | @nameFails s d _ er _ _ e =>
    have key := C76_str_to_name s d h
    rw [e] at key
    split at key
    · obtain ⟨b', k1, k2⟩ := key; cases k1
    · obtain ⟨_, k⟩ := key; cases k; exact ⟨hw.1, hp, ho⟩
    all_goals cases key
  | @rdata s ty cls _ w b _ _ e =>
    have key := C76_str_to_rdata s ty cls h
    rw [e] at key
    split at key
    · obtain ⟨b', n, k1, k2⟩ := key; cases k1; exact push rfl k2
    · obtain ⟨_, k⟩ := key; cases k
    all_goals cases key
  | @rdataFails s ty cls _ er _ _ e =>
    have key := C76_str_to_rdata s ty cls h
    rw [e] at key
    split at key
    · obtain ⟨b', n, k1, k2⟩ := key; cases k1
    · obtain ⟨_, k⟩ := key; cases k; exact ⟨hw.1, hp, ho⟩
    all_goals cases key
  | @text o _ t b _ _ e =>
    have key := hToStr_renders o h
    rw [e] at key
    split at key
    · obtain ⟨b', n, k1, k2⟩ := key; cases k1; exact push rfl k2
    all_goals cases key
  | @messageText m _ t b _ _ e =>
    have key := C76_message_to_str m h
    rw [e] at key
    split at key
    · obtain ⟨b', n, k1, k2⟩ := key; cases k1; exact push rfl k2
    all_goals cases key
  | @clear m _ m' _ A B e =>
    obtain ⟨h1, k1, k2⟩ := hClearMessage_ok (X := A.flatMap Held.blocks ++ B.flatMap Held.blocks) (ho (.msg m) (by simp)) (ok_of_perm hw (hp.trans (by
      simp only [List.flatMap_append, List.flatMap_cons, Held.blocks]; permc)))
    rw [e] at k1; cases k1
    have hb : m.cleared.blocks = [] := by simp only [HMsg.blocks, HMsg.cleared, Option.toList_none, List.nil_append, empties_blocks]
    refine ⟨k2.1, by simpa only [List.flatMap_append, List.flatMap_cons, Held.blocks, hb, List.nil_append] using k2.2.2, fun x hx => ?_⟩
    rcases List.mem_append.mp hx with hx | hx
    · exact ho x (by simp [hx])
    · rcases List.mem_cons.mp hx with rfl | hx
      · intro a ha
        obtain ⟨_, _, rfl⟩ := List.mem_map.mp ha
        exact HArr.empty_ok
      · exact ho x (by simp [hx])
  | @clearSet s _ s' _ A B e =>
    obtain ⟨h1, k1, k2⟩ := hClearRrset_ok' (X := A.flatMap Held.blocks ++ B.flatMap Held.blocks) (ho (.set s) (by simp)) (ok_of_perm hw (hp.trans (by
      simp only [List.flatMap_append, List.flatMap_cons, Held.blocks]; permc)))
    rw [e] at k1; cases k1
    refine ⟨k2.1, by simpa [List.flatMap_append, List.flatMap_cons, Held.blocks, HRRset.blocks] using k2.2.2, fun x hx => ?_⟩
    rcases List.mem_append.mp hx with hx | hx
    · exact ho x (by simp [hx])
    · rcases List.mem_cons.mp hx with rfl | hx
      · exact fun h => absurd rfl h
      · exact ho x (by simp [hx])
  | @free b _ _ A B e =>
    obtain ⟨h1, k1, k2⟩ := owns_free (p := some b) (Y := A.flatMap Held.blocks ++ B.flatMap Held.blocks) (ok_of_perm hw hp) (by
      simp only [List.flatMap_append, List.flatMap_cons, Held.blocks, Option.toList_some]; permc)
    rw [e] at k1; cases k1
    refine ⟨k2.1, by simpa [List.flatMap_append] using k2.2.2, fun x hx => ho x ?_⟩
    rcases List.mem_append.mp hx with hx | hx <;> simp [hx]

theorem history_inv {h : Heap} {L : List Held} (hr : Reach h L) : h.Wf ∧ h.live.Perm (L.flatMap Held.blocks) ∧ ∀ x ∈ L, Held.Ok x := by
  induction hr with
  | start hl => exact ⟨⟨by rw [hl]; exact .nil, by rw [hl]; simp⟩, by rw [hl]; exact .refl _, by simp⟩
  | call _ hc hl hw ih =>
    obtain ⟨h1, h2, h3⟩ := call_inv hc ih.1 ih.2.1 ih.2.2
    exact ⟨hw, by rw [hl]; exact h2, h3⟩

/-- **C130.** Whatever a program has done: the live blocks are exactly those of the objects that it holds, and no block belongs to two of them, or twice to one. -/
theorem C130_exact (h : Heap) (L : List Held) (hr : Reach h L) : h.live.Perm (L.flatMap Held.blocks) ∧ (L.flatMap Held.blocks).Nodup := by
  obtain ⟨h1, h2, -⟩ := history_inv hr
  exact ⟨h2, h2.nodup_iff.mp h1.1⟩

/-- **C130.** Everything that is held can be given back at any time, and releases its own blocks and nothing else: for each of them, the others keep theirs. -/
theorem C130_release (h : Heap) (A B : List Held) (x : Held) (hr : Reach h (A ++ x :: B)) :
    ∃ h', h'.live.Perm (A.flatMap Held.blocks ++ B.flatMap Held.blocks) ∧
      (match x with
        | .msg m => ∃ m', hClearMessage m h = ok (m', h') ∧ m'.blocks = []
        | .set s => ∃ s', hClearRrset s h = ok (s', h') ∧ s'.blocks = []
        | .block b => h.free (some b) = ok h') := by
  obtain ⟨h1, h2, h3⟩ := history_inv hr
  have ho := ok_of_perm h1 h2
  have hx := h3 x (by simp)
  have hp : ((A ++ x :: B).flatMap Held.blocks).Perm (x.blocks ++ (A.flatMap Held.blocks ++ B.flatMap Held.blocks)) := by
    simp only [List.flatMap_append, List.flatMap_cons]; permc
  cases x with
  | msg m =>
    obtain ⟨h', k1, k2⟩ := hClearMessage_ok hx (ho.perm hp)
    exact ⟨h', k2.2.2, _, k1, by simp only [HMsg.blocks, HMsg.cleared, Option.toList_none, List.nil_append, empties_blocks]⟩
  | set s =>
    obtain ⟨h', k1, k2⟩ := hClearRrset_ok' hx (ho.perm hp)
    exact ⟨h', k2.2.2, _, k1, rfl⟩
  | block b =>
    obtain ⟨h', k1, k2⟩ := owns_free (p := some b) ho hp
    exact ⟨h', k2.2.2, k1⟩

/-- **C130.** Once everything has been given back, nothing is allocated. -/
theorem C130_nothing_left (h : Heap) (L : List Held) (hr : Reach h L) (hL : ∀ x ∈ L, x.blocks = []) : h.live = [] := by
  have := (history_inv hr).2.1
  rw [List.flatMap_eq_nil_iff.mpr hL] at this
  exact List.perm_nil.mp this

/-- **C130.** What a call gives does not depend on what was done before: parsing and deserializing, with whatever heap and objects, give the result of the theorems about them, and are
undefined only if they are so by themselves. -/
theorem C130_independent (h : Heap) (L : List Held) (hr : Reach h L) (mem : List UInt8) (len : Nat) (le : Bool) (buf : List UInt8) (sz : Nat) :
    (∀ m, parseMessage mem len = ok m → ∃ m' h', hParseMessage mem len h = ok (.ok (), m', h') ∧ m'.erase = m) ∧
    (∀ e, parseMessage mem len = err e → ∃ m' h', hParseMessage mem len h = ok (.error e, m', h')) ∧
    (hParseMessage mem len h = ub → parseMessage mem len = ub) ∧
    (∀ r, deserializeRrset le buf sz = ok r → ∃ s h', hDeserializeRrset le buf sz h = ok (.ok (), s, h') ∧ s.val = r) ∧
    (∀ e, deserializeRrset le buf sz = err e → ∃ s h', hDeserializeRrset le buf sz h = ok (.error e, s, h')) ∧
    (hDeserializeRrset le buf sz h = ub → deserializeRrset le buf sz = ub) := by
  have hw := (history_inv hr).1
  obtain ⟨a1, a2, a3, -⟩ := C36_same_result mem len h hw
  obtain ⟨b1, b2, b3⟩ := C68_deserialize_same_result le buf sz h hw
  exact ⟨a1, a2, a3, b1, b2, b3⟩

theorem parsed_live {mem : List UInt8} {len n : Nat} {h : Heap} (hd : (match hParseMessage mem len h with
      | .ok (.ok _, _, h') => h'.live.length == n
      | _ => false) = true) : ∃ m h', hParseMessage mem len h = ok (.ok (), m, h') ∧ h'.live.length = n := by
  split at hd
  · rename_i u m h' e
    exact ⟨m, h', e, by simpa using hd⟩
  · cases hd

/-- A history: the packet of C129 is parsed, which takes 15 blocks, the root name is converted, then the message is cleared, and the allocator starts over with the lowest
numbers that are above the live ones; at last the name is freed. -/
example : ∃ h₁ h₂ h₃ h₄ L₁ L₂ L₃ L₄, Reach h₁ L₁ ∧ h₁.live.length = 15 ∧ Reach h₂ L₂ ∧ h₂.live.length = 16 ∧ L₂.length = 2 ∧ Reach h₃ L₃ ∧
    h₃.live.length = 1 ∧ Reach h₄ L₄ ∧ h₄.live = [] ∧ L₄.length = 1 := by
  obtain ⟨m, h₁, e₁, l₁⟩ := parsed_live (mem := orderMsg orderA orderB orderC) (len := 62) (n := 15) (h := ⟨0, []⟩) (by decide +kernel)
  have w₀ : Heap.Wf ⟨0, []⟩ := ⟨.nil, by simp⟩
  have w₁ := (C36_success_owns_exactly _ _ _ _ w₀ _ e₁).2.1
  have r₁ : Reach h₁ [.msg m] := .call (.start rfl) (.parse e₁) rfl w₁
  have w₂ : Heap.Wf ⟨h₁.next + 1, h₁.next :: h₁.live⟩ := ⟨List.nodup_cons.mpr ⟨fun hm => by have := w₁.2 _ hm; omega, w₁.1⟩, fun b hb => by
    rcases List.mem_cons.mp hb with rfl | hb
    · exact Nat.lt_succ_self _
    · have := w₁.2 b hb; show b < h₁.next + 1; omega⟩
  have r₂ : Reach ⟨h₁.next + 1, h₁.next :: h₁.live⟩ [.block h₁.next, .msg m] := .call r₁ (.name (s := [46]) (d := false) (n := ⟨1, [0]⟩) rfl) rfl w₂
  obtain ⟨h₃, p₃, m', e₃, b₃⟩ := C130_release _ [.block h₁.next] [] (.msg m) r₂
  have l₃ : h₃.live = [h₁.next] := List.perm_singleton.mp (by simpa [Held.blocks] using p₃)
  have r₃ : Reach ⟨h₁.next + 1, h₃.live⟩ [.block h₁.next, .msg m'] := .call r₂ (.clear (A := [.block h₁.next]) (B := []) e₃) rfl (by rw [l₃]; exact ⟨by simp, by simp⟩)
  obtain ⟨h₄, p₄, e₄⟩ := C130_release _ [] [.msg m'] (.block h₁.next) r₃
  have l₄ : h₄.live = [] := List.perm_nil.mp (by simpa [Held.blocks, b₃] using p₄)
  have r₄ : Reach h₄ [.msg m'] := .call r₃ (.free (A := []) (B := [.msg m']) e₄) rfl (by unfold Heap.Wf; rw [l₄]; exact ⟨.nil, by simp⟩)
  exact ⟨_, _, _, _, _, _, _, _, r₁, l₁, r₂, by simp [l₁], rfl, r₃, by simp [l₃], r₄, l₄, rfl⟩

end Wdns
