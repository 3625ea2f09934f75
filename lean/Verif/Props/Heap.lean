import Verif.Lemmas.Heap
import Verif.Props.Message

/-!
# C36, C37, C68: ownership of memory
-/

namespace Wdns
open Outcome

theorem Heap.Wf.owns {h : Heap} (hw : h.Wf) : Owns h h.live := ⟨hw.1, hw.2, List.Perm.refl _⟩

/-! ## C36 -/

/-- **C36 (failure).** When `wdns_parse_message` fails — whatever the packet and wherever the failure — the live
blocks are those that were live before (everything it allocated has been freed), and the message object is empty:
no options, no records and no array blocks in any section. -/
theorem C36_failure_frees_everything (mem : List UInt8) (len : Nat) (h h' : Heap) (hw : h.Wf) (e : Res) (m : HMsg)
    (hp : hParseMessage mem len h = ok (.error e, m, h')) :
    h'.live.Perm h.live ∧ h'.Wf ∧ m.blocks = [] ∧ ∀ a ∈ m.sections, a = ⟨[], [], none, none⟩ := by
  have hs := hParseMessage_sim (mem := mem) (len := len) hw.owns
  rw [hp] at hs
  cases hq : parseMessage mem len <;> rw [hq] at hs <;> simp only [SimT] at hs
  obtain ⟨_, h1, h2, h3⟩ := hs
  refine ⟨h3.2.2, ⟨h3.1, h3.2.1⟩, ?_, h2⟩
  simp only [HMsg.blocks, h1, Option.toList_none, List.nil_append, List.flatMap_eq_nil_iff]
  intro a ha
  rw [h2 a ha]; rfl

/-- **C36 (success).** When it succeeds the live blocks are those that were live before and the blocks
reachable from the message; the latter are all distinct and new. -/
theorem C36_success_owns_exactly (mem : List UInt8) (len : Nat) (h h' : Heap) (hw : h.Wf) (m : HMsg)
    (hp : hParseMessage mem len h = ok (.ok (), m, h')) :
    h'.live.Perm (m.blocks ++ h.live) ∧ h'.Wf ∧ m.blocks.Nodup ∧ ∀ b ∈ m.blocks, b ∉ h.live := by
  have hs := hParseMessage_sim (mem := mem) (len := len) hw.owns
  rw [hp] at hs
  cases hq : parseMessage mem len <;> rw [hq] at hs <;> simp only [SimT] at hs
  obtain ⟨_, _, h3⟩ := hs
  have hn := h3.2.2.nodup_iff.mp h3.1
  rw [List.nodup_append] at hn
  exact ⟨h3.2.2, ⟨h3.1, h3.2.1⟩, hn.1, fun b hb hb' => hn.2.2 b hb b hb' rfl⟩

/-- **C36 (no new failure).** The parser with explicit memory management does exactly what the parser of the
other theorems does: the same code, the same message, and no use of a released block, no double release and no
release of a foreign block (these would be `ub`). -/
theorem C36_same_result (mem : List UInt8) (len : Nat) (h : Heap) (hw : h.Wf) :
    (∀ m, parseMessage mem len = ok m → ∃ m' h', hParseMessage mem len h = ok (.ok (), m', h') ∧ m'.erase = m) ∧
    (∀ e, parseMessage mem len = err e → ∃ m' h', hParseMessage mem len h = ok (.error e, m', h')) ∧
    (hParseMessage mem len h = ub → parseMessage mem len = ub) ∧
    (hParseMessage mem len h = hang → parseMessage mem len = hang) ∧
    (hParseMessage mem len h = abort → parseMessage mem len = abort) := by
  have hs := hParseMessage_sim (mem := mem) (len := len) hw.owns
  generalize parseMessage mem len = A at hs ⊢
  generalize hParseMessage mem len h = B at hs ⊢
  rcases A with m | e | _ | _ | _ <;> rcases B with ⟨_ | _, m', h'⟩ | _ | _ | _ | _ <;> simp only [SimT] at hs <;> simp
  · exact hs.1
  · exact hs.1.symm

/-- `sampleMsg` parses, with twelve blocks on the heap … -/
example : (match hParseMessage sampleMsg sampleMsg.length ⟨0, []⟩ with
    | ok (.ok (), m, h) => decide (m.blocks.length = 12 ∧ h.live.length = 12) | _ => false) = true := by
  decide +kernel
/-- … and fails when cut inside the last record, leaving nothing. -/
example : (match hParseMessage sampleMsg (sampleMsg.length - 1) ⟨7, [3, 5]⟩ with
    | ok (.error e, _, h) => decide (e = .parseError ∧ h.live = [3, 5]) | _ => false) = true := by
  decide +kernel

/-! ## C37 -/

/-- **C37.** Parsing a packet and clearing the message releases every block of the message exactly once: clearing
succeeds (a second release of a block, or of a block that was never allocated, is `ub`), the live blocks are
again those from before the parse, and nothing is reachable from the message. -/
theorem C37_parse_then_clear (mem : List UInt8) (len : Nat) (h h' : Heap) (hw : h.Wf) (m : HMsg)
    (hp : hParseMessage mem len h = ok (.ok (), m, h')) :
    ∃ m' h'', hClearMessage m h' = ok (m', h'') ∧ h''.live.Perm h.live ∧ m'.blocks = [] ∧
      ∀ a ∈ m'.sections, a = ⟨[], [], none, none⟩ := by
  have hs := hParseMessage_sim (mem := mem) (len := len) hw.owns
  rw [hp] at hs
  cases hq : parseMessage mem len <;> rw [hq] at hs <;> simp only [SimT] at hs
  obtain ⟨_, hok, h3⟩ := hs
  obtain ⟨h'', e, hh⟩ := hClearMessage_ok hok h3
  refine ⟨m.cleared, h'', e, hh.2.2, ?_, ?_⟩
  · simp only [HMsg.cleared, HMsg.blocks, Option.toList_none, List.nil_append, List.flatMap_eq_nil_iff, List.mem_map]
    rintro a ⟨_, _, rfl⟩; rfl
  · simp only [HMsg.cleared, List.mem_map]
    rintro a ⟨_, _, rfl⟩; rfl

theorem hClearArrs_empty : ∀ (l : List HArr) (h : Heap), (∀ a ∈ l, a = .empty) → hClearArrs l h = ok (l, h) := by
  intro l
  induction l with
  | nil => intro h _; rfl
  | cons a l ih =>
    intro h ha
    rw [ha a (by simp)]
    have h1 : hClearArr .empty h = ok (.empty, h) := rfl
    simp only [hClearArrs, h1, ok_bind, ih h (fun b hb => ha b (by simp [hb]))]

/-- **C37 (again).** Clearing a message a second time, or a message the failed parser has already cleared, does
nothing: same object, same heap. -/
theorem C37_clear_again (m m' : HMsg) (h h' h2 : Heap) (hc : hClearMessage m h = ok (m', h')) :
    hClearMessage m' h2 = ok (m', h2) := by
  unfold hClearMessage at hc
  cases hf : h.free m.options with
  | ok h1 =>
    rw [hf] at hc
    simp only [ok_bind] at hc
    have key : ∀ (l : List HArr) (h1 : Heap) r, hClearArrs l h1 = ok r → ∀ a ∈ r.1, a = .empty := by
      intro l
      induction l with
      | nil => intro h1 r hr; cases hr; simp
      | cons a l ih =>
        intro h1 r hr
        simp only [hClearArrs] at hr
        cases ha : hClearArr a h1 with
        | ok v =>
          obtain ⟨a', h2⟩ := v
          have hae : a' = .empty := by
            unfold hClearArr at ha
            cases e1 : hClearRrs a.rrsBlk a.rrs h1 <;> rw [e1] at ha <;> simp at ha
            rename_i g1
            cases e2 : g1.free a.rrsBlk <;> rw [e2] at ha <;> simp at ha
            rename_i g2
            cases e3 : hClearRrsets a.rrsetsBlk a.rrsets g2 <;> rw [e3] at ha <;> simp at ha
            rename_i g3
            cases e4 : g3.free a.rrsetsBlk <;> rw [e4] at ha <;> simp at ha
            exact ha.1.symm
          rw [ha] at hr
          simp only [ok_bind] at hr
          cases hl : hClearArrs l h2 with
          | ok w =>
            rw [hl] at hr
            obtain ⟨as, h3⟩ := w
            simp only [ok_bind, ok.injEq] at hr
            subst hr
            intro b hb
            rcases List.mem_cons.mp hb with rfl | hb
            · exact hae
            · exact ih h2 _ hl b hb
          | _ => rw [hl] at hr; simp at hr
        | _ => rw [ha] at hr; simp at hr
    cases hl : hClearArrs m.sections h1 with
    | ok w =>
      rw [hl] at hc
      obtain ⟨as, h3⟩ := w
      simp only [ok_bind, ok.injEq, Prod.mk.injEq] at hc
      obtain ⟨rfl, _⟩ := hc
      simp only [hClearMessage, Heap.free, ok_bind, hClearArrs_empty as h2 (key _ _ _ hl)]
    | _ => rw [hl] at hc; simp at hc
  | _ => rw [hf] at hc; simp at hc

/-- A case of `C37_clear_again` and `C37_parse_then_clear`: the sample is parsed, cleared, and cleared again. -/
example : (match hParseMessage sampleMsg sampleMsg.length ⟨0, []⟩ with
    | ok (.ok (), m, h) => (match hClearMessage m h with
        | ok (m', h') => decide (h'.live = []) && (match hClearMessage m' h' with | ok (_, h2) => decide (h2.live = []) | _ => false)
        | _ => false)
    | _ => false) = true := by decide +kernel

/-- The message of a failed parse can be cleared: nothing happens. -/
theorem C37_clear_after_failure (mem : List UInt8) (len : Nat) (h h' : Heap) (hw : h.Wf) (e : Res) (m : HMsg)
    (hp : hParseMessage mem len h = ok (.error e, m, h')) : ∃ m', hClearMessage m h' = ok (m', h') := by
  have hs := hParseMessage_sim (mem := mem) (len := len) hw.owns
  rw [hp] at hs
  cases hq : parseMessage mem len <;> rw [hq] at hs <;> simp only [SimT] at hs
  obtain ⟨_, h1, h2, h3⟩ := hs
  simp only [hClearMessage, h1, Heap.free, ok_bind, hClearArrs_empty m.sections h' h2]
  exact ⟨_, rfl⟩

/-! ## C68 -/

/-- **C68 (failure).** When `wdns_deserialize_rrset` fails, everything it allocated has been freed and the RRset
object has no rdatas and no blocks. -/
theorem C68_deserialize_failure (le : Bool) (buf : List UInt8) (sz : Nat) (h h' : Heap) (hw : h.Wf) (e : Res) (s : HRRset)
    (hp : hDeserializeRrset le buf sz h = ok (.error e, s, h')) :
    h'.live.Perm h.live ∧ s.blocks = [] ∧ s.items = [] ∧ s.val.rdatas = [] := by
  have hs := hDeserializeRrset_sim (le := le) (buf := buf) (sz := sz) hw.owns
  rw [hp] at hs
  cases hq : deserializeRrset le buf sz <;> rw [hq] at hs <;> simp only [SimD] at hs
  exact ⟨hs.2.2.2.2.2.2, hs.2.1, hs.2.2.1, hs.2.2.2.1⟩

/-- **C68 (success).** When it succeeds, exactly the blocks reachable from the RRset are new, and `wdns_clear_rrset`
releases each of them exactly once. -/
theorem C68_deserialize_success (le : Bool) (buf : List UInt8) (sz : Nat) (h h' : Heap) (hw : h.Wf) (s : HRRset)
    (hp : hDeserializeRrset le buf sz h = ok (.ok (), s, h')) :
    h'.live.Perm (s.blocks ++ h.live) ∧ s.blocks.Nodup ∧
    ∃ s' h'', hClearRrset s h' = ok (s', h'') ∧ h''.live.Perm h.live ∧ s'.blocks = [] := by
  have hs := hDeserializeRrset_sim (le := le) (buf := buf) (sz := sz) hw.owns
  rw [hp] at hs
  cases hq : deserializeRrset le buf sz <;> rw [hq] at hs <;> simp only [SimD] at hs
  obtain ⟨_, hok, h3⟩ := hs
  have hn := h3.2.2.nodup_iff.mp h3.1
  rw [List.nodup_append] at hn
  obtain ⟨h'', e, hh⟩ := hClearRrset_ok hok h3
  exact ⟨h3.2.2, hn.1, _, h'', e, hh.2.2, rfl⟩

/-- **C68 (same result).** The code and the RRset are those of `deserializeRrset`, about which C22–C24 speak; no use of
a released block. -/
theorem C68_deserialize_same_result (le : Bool) (buf : List UInt8) (sz : Nat) (h : Heap) (hw : h.Wf) :
    (∀ r, deserializeRrset le buf sz = ok r → ∃ s h', hDeserializeRrset le buf sz h = ok (.ok (), s, h') ∧ s.val = r) ∧
    (∀ e, deserializeRrset le buf sz = err e → ∃ s h', hDeserializeRrset le buf sz h = ok (.error e, s, h')) ∧
    (hDeserializeRrset le buf sz h = ub → deserializeRrset le buf sz = ub) := by
  have hs := hDeserializeRrset_sim (le := le) (buf := buf) (sz := sz) hw.owns
  generalize deserializeRrset le buf sz = A at hs ⊢
  generalize hDeserializeRrset le buf sz h = B at hs ⊢
  rcases A with m | e | _ | _ | _ <;> rcases B with ⟨_ | _, m', h'⟩ | _ | _ | _ | _ <;> simp only [SimD] at hs <;> simp
  · exact hs.1
  · exact hs.1.symm

/-- Two rdatas, the second one cut: both already allocated blocks are freed. -/
example : ∃ s h', hDeserializeRrset true [1, 0, 1, 0, 1, 0, 0, 0, 0, 0, 2, 0, 1, 0, 9, 5, 0, 9] 18 ⟨4, [2]⟩ =
    ok (.error .overflow, s, h') ∧ h'.live = [2] := ⟨_, _, rfl, rfl⟩
example : ∃ s h', hDeserializeRrset true [1, 0, 1, 0, 1, 0, 0, 0, 0, 0, 2, 0, 1, 0, 9, 1, 0, 9] 18 ⟨4, [2]⟩ =
    ok (.ok (), s, h') ∧ s.blocks.length = 4 := ⟨_, _, rfl, rfl⟩

end Wdns
