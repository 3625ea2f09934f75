import Verif.Props.OomLocal
import Verif.Props.OomText

/-!
# Running out of memory: only the requests of the call matter, for records, messages and files (C115)

Property theorems: C115_local_print, C115_local_load_names.
-/

namespace Wdns
open Outcome

theorem oRrToUbuf_loc (F : Alloc) (u : List UInt8) (rr : RR) (sec : Nat) (h : Heap) :
    Loc F (·.2.next) h.next (oRrToUbuf F u rr sec h) (oRrToUbuf .plenty u rr sec h) := by
  unfold oRrToUbuf
  refine Loc.same fun _ _ => ?_
  dsimp only
  refine Loc.same fun _ _ => ?_
  refine Loc.bind (fun r => r.2.next) ?_ ?_
  · by_cases h0 : sec ≠ 0
    · rw [if_pos h0, if_pos h0]
      cases rr.rdata with
      | none => exact Loc.ub
      | some rd => exact oRdataToUbuf_loc F _ _ _ _ _ _
    · rw [if_neg h0, if_neg h0]
      exact Loc.ok le_rfl
  · rintro ⟨u, h'⟩ -
    exact Loc.abort_if (Loc.ok le_rfl)

theorem oRrsetLoop_loc (F : Alloc) (s : RRset) (sec : Nat) (l : List (Option CRdata)) (u : List UInt8) (h : Heap) :
    Loc F (·.2.next) h.next (oRrsetLoop F s sec l u h) (oRrsetLoop .plenty s sec l u h) := by
  induction l generalizing u h with
  | nil => exact Loc.ok le_rfl
  | cons r rs ih => exact Loc.bind _ (oRrToUbuf_loc F _ _ _ _) fun _ _ => ih _ _

theorem oRrsetToUbuf_loc (F : Alloc) (u : List UInt8) (s : RRset) (sec : Nat) (h : Heap) :
    Loc F (·.2.next) h.next (oRrsetToUbuf F u s sec h) (oRrsetToUbuf .plenty u s sec h) := by
  unfold oRrsetToUbuf
  split
  · cases s.rdatas with
    | nil => exact Loc.ub
    | cons r _ => exact oRrsetLoop_loc F _ _ _ _ _
  · exact oRrsetLoop_loc F _ _ _ _ _

theorem oRrsToUbuf_loc (F : Alloc) (sec : Nat) (l : List RR) (u : List UInt8) (h : Heap) :
    Loc F (·.2.next) h.next (oRrsToUbuf F sec l u h) (oRrsToUbuf .plenty sec l u h) := by
  induction l generalizing u h with
  | nil => exact Loc.ok le_rfl
  | cons r rs ih => exact Loc.bind _ (oRrToUbuf_loc F _ _ _ _) fun _ _ => ih _ _

theorem oMsgEdns_loc (F : Alloc) (e : Edns) (h : Heap) : Loc F (·.2.next) h.next (oMsgEdns F e h) (oMsgEdns .plenty e h) := by
  unfold oMsgEdns
  split
  · dsimp only
    cases e.options with
    | none => exact Loc.ok le_rfl
    | some o =>
      dsimp only
      rw [plenty_ubufNew, ok_bind]
      refine Loc.ubufNew ?_
      refine Loc.bind _ (oRdataToUbuf_loc F _ _ _ _ _ _) ?_
      rintro ⟨t, h'⟩ -
      refine Loc.abort_if ?_
      exact Loc.same fun _ _ => Loc.bind _ (hUbufDestroy_loc F _ _) fun _ _ => Loc.ok le_rfl
  · exact Loc.ok le_rfl

theorem oMessageToUbuf_loc (F : Alloc) (m : Message) (h : Heap) :
    Loc F (·.2.next) h.next (oMessageToUbuf F m h) (oMessageToUbuf .plenty m h) := by
  unfold oMessageToUbuf
  dsimp only
  refine Loc.bind _ (oMsgEdns_loc F _ _) fun _ _ => ?_
  refine Loc.bind _ (oRrsToUbuf_loc F _ _ _ _) fun _ _ => ?_
  refine Loc.bind _ (oRrsToUbuf_loc F _ _ _ _) fun _ _ => ?_
  refine Loc.bind _ (oRrsToUbuf_loc F _ _ _ _) fun _ _ => ?_
  exact oRrsToUbuf_loc F _ _ _ _

theorem oToStr_loc (F : Alloc) (f g : Heap → Outcome (List UInt8 × Heap)) (hf : ∀ h, Loc F (·.2.next) h.next (f h) (g h)) (h : Heap) :
    Loc F (·.2.next) h.next (oToStr F f h) (oToStr .plenty g h) := by
  unfold oToStr
  rw [plenty_ubufNew, ok_bind]
  refine Loc.ubufNew ?_
  refine Loc.bind _ (hf _) ?_
  rintro ⟨t, h'⟩ -
  refine Loc.abort_if ?_
  exact Loc.bind _ (oUbufDetach_loc F _ _) fun _ _ => Loc.bind _ (hUbufDestroy_loc F _ _) fun _ _ => Loc.ok le_rfl

theorem oLoadLoop_loc (F : Alloc) (fuel : Nat) (f : List UInt8) (h : Heap) :
    Loc F (·.2.next) h.next (oLoadLoop F fuel f h) (hLoadLoop fuel f h) := by
  induction fuel generalizing f h with
  | zero => exact Loc.hang
  | succ fuel ih =>
    unfold oLoadLoop hLoadLoop
    rcases fgets 1280 f with _ | ⟨line, rest⟩
    · exact Loc.ok le_rfl
    · dsimp only
      by_cases h1 : line.getD 0 0 = 10 ∨ line.getD 0 0 = 32 ∨ line.getD 0 0 = 35
      · rw [if_pos h1, if_pos h1]
        exact ih _ _
      · rw [if_neg h1, if_neg h1]
        by_cases h2 : cstrOf line = []
        · rw [if_pos h2, if_pos h2]
          exact Loc.ub
        · rw [if_neg h2, if_neg h2]
          refine Loc.bind _ (oStrToNameGen_loc F _ true h) ?_
          rintro ⟨e | n, h'⟩ -
          · exact Loc.ok le_rfl
          · exact Loc.bind _ (ih _ _) fun _ _ => Loc.ok le_rfl

theorem oFileLoadNames_loc (F : Alloc) (file : Option (List UInt8)) (h : Heap) :
    Loc F (·.2.next) h.next (oFileLoadNames F file h) (hFileLoadNames file h) := by
  unfold oFileLoadNames hFileLoadNames
  cases file with
  | none => exact Loc.ok le_rfl
  | some f =>
    dsimp only
    generalize hg : h.cMalloc F = g
    revert g; refine Loc.asked ?_
    dsimp only
    exact Loc.bind _ (oLoadLoop_loc F _ _ _) fun _ _ => Loc.free fun _ => Loc.ok le_rfl

/-- What is asked of a call that gives a text: whatever is refused outside of the moments that it takes with enough memory, it gives the text `x` and
the block and heap that it gives with enough memory. -/
def Undisturbed (F : Alloc) (x : Outcome (List UInt8)) (f : Alloc → Heap → Outcome ((List UInt8 × Nat) × Heap)) (h : Heap) : Prop :=
  ∀ t b h', f .plenty h = ok ((t, b), h') → F.Quiet h.next h'.next → h.next ≤ h'.next ∧ x = ok t ∧ f F h = ok ((t, b), h')

theorem undisturbed_of {F : Alloc} {x : Outcome (List UInt8)} {f : Alloc → Heap → Outcome ((List UInt8 × Nat) × Heap)} {h : Heap} {c : Bool}
    (hl : Loc F (·.2.next) h.next (f F h) (f .plenty h)) (hr : RendersUnless .plenty c x (f .plenty)) : Undisturbed F x f h := by
  intro t b h' e hq
  obtain ⟨h1, h2⟩ := hl _ e
  refine ⟨h1, ?_, (h2 hq).trans e⟩
  rcases hr h with ⟨⟨n, hn | hn⟩, -⟩ | hr
  · cases hn
  · cases hn
  · cases x with
    | ok t' =>
      obtain ⟨b', n, e', -⟩ := hr
      rw [e] at e'
      cases e'
      rfl
    | _ =>
      rw [e] at hr
      cases hr

/-- **C115 (only requests during the call matter).** `wdns_rr_to_str`, `wdns_rrset_to_str`, `wdns_rrset_array_to_str` and `wdns_message_to_str`. -/
theorem C115_local_print (F : Alloc) (rr : RR) (s : RRset) (a : RRsetArray) (m : Message) (sec : Nat) (h : Heap) :
    Undisturbed F (rrToStr rr sec) (fun F => oRrToStr F rr sec) h ∧ Undisturbed F (rrsetToStr s sec) (fun F => oRrsetToStr F s sec) h ∧
    Undisturbed F (rrsetArrayToStr a sec) (fun F => oRrsetArrayToStr F a sec) h ∧ Undisturbed F (messageToStr m) (fun F => oMessageToStr F m) h := by
  obtain ⟨p1, p2, p3, p4⟩ := C115_print .plenty rr s a m sec
  exact ⟨undisturbed_of (oToStr_loc F _ _ (fun _ => oRrToUbuf_loc F _ _ _ _) h) p1, undisturbed_of (oToStr_loc F _ _ (fun _ => oRrsetToUbuf_loc F _ _ _ _) h) p2,
    undisturbed_of (oToStr_loc F _ _ (fun _ => oRrsToUbuf_loc F _ _ _ _) h) p3, undisturbed_of (oToStr_loc F _ _ (fun _ => oMessageToUbuf_loc F _ _) h) p4⟩

/-- **C115 (only requests during the call matter).** `wdns_file_load_names`. -/
theorem C115_local_load_names (F : Alloc) (file : Option (List UInt8)) (h : Heap) (r : List (CName × Nat) × Res) (h' : Heap)
    (e : hFileLoadNames file h = ok (r, h')) (hq : F.Quiet h.next h'.next) :
    h.next ≤ h'.next ∧ oFileLoadNames F file h = ok (r, h') := by
  obtain ⟨h1, h2⟩ := oFileLoadNames_loc F file h _ e
  exact ⟨h1, (h2 hq).trans e⟩

/-- A message with a question, asked for its text between the moments 5 and 9, everything else refused. -/
example : (match oMessageToStr .plenty ⟨7, 0, 0, .zero, [⟨[⟨0, 1, 1, ⟨3, [1, 97, 0]⟩, none⟩], []⟩, .empty, .empty, .empty]⟩ ⟨5, []⟩,
      oMessageToStr refusesElsewhere ⟨7, 0, 0, .zero, [⟨[⟨0, 1, 1, ⟨3, [1, 97, 0]⟩, none⟩], []⟩, .empty, .empty, .empty]⟩ ⟨5, []⟩ with
    | ok ((t, b), h'), ok ((t', b'), h'') => decide (t.length > 100 ∧ t' = t ∧ b' = b ∧ h'' = h' ∧ h'.next ≤ 9)
    | _, _ => false) = true := by decide +kernel

end Wdns
