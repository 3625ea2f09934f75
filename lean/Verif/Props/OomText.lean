import Verif.Model.OomText
import Verif.Props.OomGranted

/-!
# C115 for records, RRsets, sections and messages written as text, and for loading names

Property theorems: C115_print, C115_print_safe_partial, C115_print_granted_partial, C115_unnoticed, C115_load_names, C115_load_names_granted.
-/

namespace Wdns
open Outcome

/-- `f` is a function that returns a text in a new block, `o` what it gives with enough memory.  Unless a request is refused and then an assertion ends the
process (or, only if `c`, the behaviour is undefined), the text is the same, and its block is the only new one. -/
def RendersUnless (F : Alloc) (c : Bool) (o : Outcome (List UInt8)) (f : Heap → Outcome ((List UInt8 × Nat) × Heap)) : Prop := ∀ h : Heap,
  (F.Refuses ∧ (f h = abort ∨ (c = true ∧ f h = ub))) ∨
  match o with
  | ok t => ∃ b n, f h = ok ((t, b), ⟨n, b :: h.live⟩) ∧ h.next ≤ b
  | err e => f h = err e
  | ub => f h = ub
  | hang => f h = hang
  | abort => f h = abort

/-- A type that is written without base64 text and without SvcParams. -/
def Spec.PlainRdata (ty cls : Nat) : Prop :=
  ∀ d, recordDescr ty = some d → d.applies cls = true → .bytesB64 ∉ d.types ∧ .svcparams ∉ d.types

/-- A record of which no such rdata is written. -/
def Spec.PlainRR (sec : Nat) (rr : RR) : Prop := sec = 0 ∨ Spec.PlainRdata rr.rrtype rr.rrclass

/-- Writing the rdata of this type and class follows the model without refusals. -/
def RdLe (F : Alloc) (b : Bool) (ty cls : Nat) : Prop :=
  ∀ u mem rdlen h, LeH F b h (oRdataToUbuf F u mem rdlen ty cls h) (rdataToUbuf u mem rdlen ty cls)

theorem rdLe_true (F : Alloc) (ty cls : Nat) : RdLe F true ty cls := fun u mem rdlen h =>
  oRdataToUbuf_gen u mem rdlen ty cls (fun _ _ _ t _ st h => oTField_le F mem t st h) h

theorem rdLe_plain {F : Alloc} {b : Bool} {ty cls : Nat} (hp : Spec.PlainRdata ty cls) : RdLe F b ty cls := by
  intro u mem rdlen h
  refine oRdataToUbuf_gen u mem rdlen ty cls (fun d hd ha t ht st h => ?_) h
  obtain ⟨n1, n2⟩ := hp d hd ha
  cases t with
  | bytesB64 => exact absurd ht n1
  | svcparams => exact absurd ht n2
  | _ => exact LeH.pure _ _

theorem oRrToUbuf_gen {F : Alloc} {b : Bool} (u : List UInt8) (rr : RR) (sec : Nat) (hp : sec ≠ 0 → RdLe F b rr.rrtype rr.rrclass) (h : Heap) :
    LeH F b h (oRrToUbuf F u rr sec h) (rrToUbuf u rr sec) := by
  unfold oRrToUbuf rrToUbuf
  refine LeH.lift _ fun ⟨_, name⟩ => ?_
  by_cases hs : sec = 0
  · simp only [hs, ne_eq, not_true_eq_false, if_true, if_false, ok_bind]
    exact LeH.abort_if (LeH.ok _ _)
  · simp only [hs, ne_eq, not_false_eq_true, if_true, if_false]
    refine LeH.lift _ fun u => ?_
    refine LeH.bind (h := h) ?_ fun u h' _ _ => LeH.abort_if (LeH.ok _ _)
    cases rr.rdata with
    | none => exact .inr (.inr (.inl rfl))
    | some rd => exact hp hs _ _ _ _

theorem oRrsetLoop_gen {F : Alloc} {b : Bool} (s : RRset) (sec : Nat) (hp : sec ≠ 0 → RdLe F b s.rrtype s.rrclass) :
    ∀ (l : List (Option CRdata)) (u : List UInt8) (h : Heap), LeH F b h (oRrsetLoop F s sec l u h) (rrsetLoop s sec l u)
  | [], u, h => LeH.ok _ _
  | r :: rs, u, h => by
    unfold oRrsetLoop rrsetLoop
    exact LeH.bind (oRrToUbuf_gen u _ sec hp h) fun u h' _ _ => oRrsetLoop_gen s sec hp rs u h'

theorem oRrsetToUbuf_gen {F : Alloc} {b : Bool} (u : List UInt8) (s : RRset) (sec : Nat) (hp : sec ≠ 0 → RdLe F b s.rrtype s.rrclass) (h : Heap) :
    LeH F b h (oRrsetToUbuf F u s sec h) (rrsetToUbuf u s sec) := by
  unfold oRrsetToUbuf rrsetToUbuf
  split
  · cases s.rdatas with
    | nil => exact .inr (.inr (.inl rfl))
    | cons r rs => exact oRrsetLoop_gen s sec hp _ u h
  · exact oRrsetLoop_gen s sec hp _ u h

theorem oRrsToUbuf_gen {F : Alloc} {b : Bool} (sec : Nat) : ∀ (l : List RR) (_ : ∀ rr ∈ l, sec ≠ 0 → RdLe F b rr.rrtype rr.rrclass) (u : List UInt8) (h : Heap),
    LeH F b h (oRrsToUbuf F sec l u h) (rrsToUbuf sec l u)
  | [], _, u, h => LeH.ok _ _
  | rr :: rrs, hp, u, h => by
    unfold oRrsToUbuf rrsToUbuf
    exact LeH.bind (oRrToUbuf_gen u rr sec (hp rr (List.mem_cons_self ..)) h) fun u h' _ _ =>
      oRrsToUbuf_gen sec rrs (fun r hr => hp r (List.mem_cons_of_mem _ hr)) u h'

theorem plain_opt : Spec.PlainRdata 41 0 := by
  intro d hd _
  have : recordDescr 41 = some ⟨0, [.ednsOptRdata]⟩ := by rfl
  rw [this] at hd
  cases hd
  decide

theorem oMsgEdns_gen {F : Alloc} {b : Bool} (e : Edns) (h : Heap) : LeH F b h (oMsgEdns F e h) (msgEdns e) := by
  unfold oMsgEdns msgEdns
  split
  · cases e.options with
    | none => exact LeH.ok _ _
    | some o =>
      dsimp only
      unfold oUbufNew Heap.myMalloc
      by_cases h1 : F.fails h.next = true
      · rw [if_pos h1]
        exact .inl ⟨⟨_, .inl h1⟩, rfl⟩
      rw [if_neg h1]
      simp only [ok_bind]
      by_cases h2 : F.fails h.malloc.2.next = true
      · rw [if_pos h2]
        exact .inl ⟨⟨_, .inl h2⟩, rfl⟩
      rw [if_neg h2]
      simp only [ok_bind]
      have tail : ∀ (t : List UInt8) (h' : Heap) (x : List UInt8), h'.live = (h.next + 1) :: h.next :: h.live → h.next + 2 ≤ h'.next →
          LeH F b h (if F.grows h'.next then Outcome.abort else do
            h'.use (some h.malloc.2.malloc.1)
            let h ← hUbufDestroy ⟨h.malloc.1, h.malloc.2.malloc.1⟩ h'
            ok (x, h)) (ok x) := by
        intro t h' x hl hn
        refine LeH.abort_if ?_
        have hu : h'.use (some h.malloc.2.malloc.1) = ok () := by unfold Heap.use; rw [hl]; simp [Heap.malloc]
        rw [hu, ok_bind]
        have hd : hUbufDestroy ⟨h.malloc.1, h.malloc.2.malloc.1⟩ h' = ok ⟨h'.next, h.live⟩ := by
          unfold hUbufDestroy Heap.use Heap.free
          simp [hl, Heap.malloc]
        rw [hd]
        exact .inr (.inr (.inr ⟨x, _, rfl, rfl, rfl, by show h.next ≤ h'.next; omega⟩))
      rcases rdLe_plain (F := F) (b := b) plain_opt [] o.data o.len h.malloc.2.malloc.2 with ⟨hF, e⟩ | ⟨hc, e⟩ | e | ⟨t, h', e1, e2, hl, hn⟩
      · rw [e]; exact .inl ⟨hF, rfl⟩
      · rw [e]; exact .inr (.inl ⟨hc, rfl⟩)
      · rw [e]
        cases rdataToUbuf [] o.data o.len 41 0 with
        | ok t => exact tail t _ _ rfl (by simp [Heap.malloc])
        | _ => exact .inr (.inr (.inl rfl))
      · rw [e1, e2]
        exact tail t h' _ hl (by simpa [Heap.malloc] using hn)
  · exact LeH.ok _ _

/-- The records of section `i`. -/
def Spec.secRecs (m : Message) (i : Nat) : List RR := (m.sections[i]?).elim [] fun a => a.rrs

/-- What is rendered into the buffer by `wdns_message_to_str`. -/
theorem messageToStr_eq (m : Message) : messageToStr m = (msgEdns m.edns >>= fun e =>
    rrsToUbuf 0 (Spec.secRecs m 0) (msgHeader m ++ e ++ ascii "\n;; QUESTION SECTION:\n") >>= fun u =>
    rrsToUbuf 1 (Spec.secRecs m 1) (u ++ ascii "\n;; ANSWER SECTION:\n") >>= fun u =>
    rrsToUbuf 2 (Spec.secRecs m 2) (u ++ ascii "\n;; AUTHORITY SECTION:\n") >>= fun u =>
    rrsToUbuf 3 (Spec.secRecs m 3) (u ++ ascii "\n;; ADDITIONAL SECTION:\n")) >>= fun u => ok (cstrOf u) := by
  unfold messageToStr Spec.secRecs
  cases msgEdns m.edns with
  | ok e =>
    simp only [ok_bind]
    generalize rrsToUbuf 0 _ _ = a
    cases a with
    | ok a =>
      simp only [ok_bind]
      generalize rrsToUbuf 1 _ _ = a
      cases a with
      | ok a =>
        simp only [ok_bind]
        generalize rrsToUbuf 2 _ _ = a
        cases a <;> rfl
      | _ => rfl
    | _ => rfl
  | _ => rfl

theorem oMessageToUbuf_gen {F : Alloc} {b : Bool} (m : Message) (hp : ∀ i, i ≠ 0 → ∀ rr ∈ Spec.secRecs m i, RdLe F b rr.rrtype rr.rrclass) (h : Heap) :
    LeH F b h (oMessageToUbuf F m h) (msgEdns m.edns >>= fun e =>
      rrsToUbuf 0 (Spec.secRecs m 0) (msgHeader m ++ e ++ ascii "\n;; QUESTION SECTION:\n") >>= fun u =>
      rrsToUbuf 1 (Spec.secRecs m 1) (u ++ ascii "\n;; ANSWER SECTION:\n") >>= fun u =>
      rrsToUbuf 2 (Spec.secRecs m 2) (u ++ ascii "\n;; AUTHORITY SECTION:\n") >>= fun u =>
      rrsToUbuf 3 (Spec.secRecs m 3) (u ++ ascii "\n;; ADDITIONAL SECTION:\n")) := by
  unfold oMessageToUbuf
  refine LeH.bind (oMsgEdns_gen _ _) fun e h _ _ => ?_
  refine LeH.bind (oRrsToUbuf_gen 0 _ (fun rr _ h0 => absurd rfl h0) _ _) fun u h _ _ => ?_
  refine LeH.bind (oRrsToUbuf_gen 1 _ (fun rr hr _ => hp 1 (by decide) rr hr) _ _) fun u h _ _ => ?_
  refine LeH.bind (oRrsToUbuf_gen 2 _ (fun rr hr _ => hp 2 (by decide) rr hr) _ _) fun u h _ _ => ?_
  exact oRrsToUbuf_gen 3 _ (fun rr hr _ => hp 3 (by decide) rr hr) _ _

theorem oToStr_gen (F : Alloc) (c : Bool) (render : Heap → Outcome (List UInt8 × Heap)) (text : Outcome (List UInt8))
    (hr : ∀ h, LeH F c h (render h) text) : RendersUnless F c (text >>= fun u => ok (cstrOf u)) (oToStr F render) := by
  intro h
  unfold oToStr oUbufNew Heap.myMalloc
  by_cases h1 : F.fails h.next = true
  · rw [if_pos h1]
    exact .inl ⟨⟨_, .inl h1⟩, .inl rfl⟩
  rw [if_neg h1]
  simp only [ok_bind]
  by_cases h2 : F.fails h.malloc.2.next = true
  · rw [if_pos h2]
    exact .inl ⟨⟨_, .inl h2⟩, .inl rfl⟩
  rw [if_neg h2]
  simp only [ok_bind]
  have after : ∀ (t : List UInt8) (h' : Heap), h'.live = (hUbufNew h).2.live →
      (F.Refuses ∧ ((if F.grows h'.next then Outcome.abort else do
        let (b, u, h) ← oUbufDetach F ⟨h.malloc.1, h.malloc.2.malloc.1⟩ h'
        let h ← hUbufDestroy u h
        ok ((cstrOf t, b), h)) = Outcome.abort)) ∨
      ∃ b n, (if F.grows h'.next then Outcome.abort else do
        let (b, u, h) ← oUbufDetach F ⟨h.malloc.1, h.malloc.2.malloc.1⟩ h'
        let h ← hUbufDestroy u h
        ok ((cstrOf t, b), h)) = ok ((cstrOf t, b), ⟨n, b :: h.live⟩) ∧ h.next ≤ b := by
    intro t h' hl
    by_cases h3 : F.grows h'.next = true
    · rw [if_pos h3]
      exact .inl ⟨⟨_, .inr h3⟩, rfl⟩
    rw [if_neg h3]
    unfold oUbufDetach Heap.myMalloc
    have hl' : h'.live = (h.next + 1) :: h.next :: h.live := hl
    have hu : h'.use (some h.malloc.1) = ok () := by unfold Heap.use; rw [hl']; simp [Heap.malloc]
    rw [hu]
    simp only [ok_bind]
    by_cases h4 : F.fails h'.next = true
    · rw [if_pos h4]
      exact .inl ⟨⟨_, .inl h4⟩, rfl⟩
    rw [if_neg h4]
    right
    have hd := detach_frame (cstrOf t) (u := ⟨h.next, h.next + 1⟩) (L := h.live) (h := h') hl' (by simp)
    unfold hUbufDetach at hd
    have hu' : h'.use (some h.next) = ok () := hu
    simp only [hu', ok_bind] at hd
    exact ⟨_, _, hd, by simp⟩
  rcases hr h.malloc.2.malloc.2 with ⟨hF, e⟩ | ⟨⟨hc, hF⟩, e⟩ | e | ⟨t, h', e1, e2, hl, hn⟩
  · rw [e]
    exact .inl ⟨hF, .inl rfl⟩
  · rw [e]
    exact .inl ⟨hF, .inr ⟨hc, rfl⟩⟩
  · rw [e]
    cases text with
    | ok t =>
      rcases after t _ rfl with ⟨hF, ha⟩ | ha
      · exact .inl ⟨hF, .inl ha⟩
      · exact .inr ha
    | _ => exact .inr rfl
  · rw [e1, e2]
    rcases after t h' hl with ⟨hF, ha⟩ | ha
    · exact .inl ⟨hF, .inl ha⟩
    · exact .inr ha

theorem oMessageToStr_gen (F : Alloc) (c : Bool) (m : Message) (hp : ∀ i, i ≠ 0 → ∀ rr ∈ Spec.secRecs m i, RdLe F c rr.rrtype rr.rrclass) :
    RendersUnless F c (messageToStr m) (oMessageToStr F m) := by
  rw [messageToStr_eq]
  exact oToStr_gen F c _ _ (oMessageToUbuf_gen m hp)

/-- **C115 (writing records and messages).**  Whatever requests are refused: if `wdns_rr_to_str`, `wdns_rrset_to_str`, `wdns_rrset_array_to_str` or `wdns_message_to_str`
returns, it returns the text it would return with enough memory, and the block of this text is the only new one (so the second buffer that is used for
EDNS options has been released).  Otherwise it ends as it would anyway, or a request has been refused. -/
theorem C115_print (F : Alloc) (rr : RR) (s : RRset) (a : RRsetArray) (m : Message) (sec : Nat) :
    RendersUnless F true (rrToStr rr sec) (oRrToStr F rr sec) ∧ RendersUnless F true (rrsetToStr s sec) (oRrsetToStr F s sec) ∧
    RendersUnless F true (rrsetArrayToStr a sec) (oRrsetArrayToStr F a sec) ∧ RendersUnless F true (messageToStr m) (oMessageToStr F m) :=
  ⟨oToStr_gen F true _ _ fun h => oRrToUbuf_gen [] rr sec (fun _ => rdLe_true F _ _) h,
   oToStr_gen F true _ _ fun h => oRrsetToUbuf_gen [] s sec (fun _ => rdLe_true F _ _) h,
   oToStr_gen F true _ _ fun h => oRrsToUbuf_gen sec a.rrs (fun _ _ _ => rdLe_true F _ _) [] h,
   oMessageToStr_gen F true m fun _ _ _ _ => rdLe_true F _ _⟩

/-- **C115 (writing records and messages, in part).**  If no rdata with base64 text or SvcParams is written, a refusal ends the process by an assertion: nothing undefined
happens. -/
theorem C115_print_safe_partial (F : Alloc) (rr : RR) (s : RRset) (a : RRsetArray) (m : Message) (sec : Nat) :
    (Spec.PlainRR sec rr → RendersUnless F false (rrToStr rr sec) (oRrToStr F rr sec)) ∧
    (sec = 0 ∨ Spec.PlainRdata s.rrtype s.rrclass → RendersUnless F false (rrsetToStr s sec) (oRrsetToStr F s sec)) ∧
    ((∀ r ∈ a.rrs, Spec.PlainRR sec r) → RendersUnless F false (rrsetArrayToStr a sec) (oRrsetArrayToStr F a sec)) ∧
    ((∀ i, ∀ r ∈ Spec.secRecs m i, Spec.PlainRR i r) → RendersUnless F false (messageToStr m) (oMessageToStr F m)) :=
  ⟨fun hp => oToStr_gen F false _ _ fun h => oRrToUbuf_gen [] rr sec (fun h0 => rdLe_plain (hp.resolve_left h0)) h,
   fun hp => oToStr_gen F false _ _ fun h => oRrsetToUbuf_gen [] s sec (fun h0 => rdLe_plain (hp.resolve_left h0)) h,
   fun hp => oToStr_gen F false _ _ fun h => oRrsToUbuf_gen sec a.rrs (fun r hr h0 => rdLe_plain ((hp r hr).resolve_left h0)) [] h,
   fun hp => oMessageToStr_gen F false m fun i hi r hr => rdLe_plain ((hp i r hr).resolve_left hi)⟩

/-! ## No refusal goes unnoticed -/

section
variable {F : Alloc} {h0 h : Heap}

theorem gr_rdataToUbuf {ty cls : Nat} (hp : Spec.PlainRdata ty cls) (g : Gr F h0 h) (u mem : List UInt8) (rdlen : Nat) :
    GrOk F h0 Prod.snd (oRdataToUbuf F u mem rdlen ty cls h) := by
  unfold oRdataToUbuf
  split
  · split
    · exact GrOk.abort
    · refine GrOk.pure fun _ => GrOk.pure fun _ => GrOk.pure fun _ => ?_
      exact GrOk.ok g
  · rename_i d hd
    split
    · rename_i ha
      refine GrOk.bind (gr_tFields mem _ (hp d hd ha).1 (hp d hd ha).2 _ _ g) fun ⟨r, h1⟩ g => ?_
      cases r with
      | go st => exact GrOk.ok g
      | bad o u => cases o <;> exact GrOk.ok g
    · exact GrOk.ok g

theorem gr_rrToUbuf {rr : RR} {sec : Nat} (hp : Spec.PlainRR sec rr) (g : Gr F h0 h) (u : List UInt8) :
    GrOk F h0 Prod.snd (oRrToUbuf F u rr sec h) := by
  unfold oRrToUbuf
  refine GrOk.pure fun ⟨_, name⟩ => ?_
  by_cases hs : sec = 0
  · simp only [hs, ne_eq, not_true_eq_false, if_true, if_false, ok_bind]
    split
    · exact GrOk.abort
    · exact GrOk.ok g
  · simp only [hs, ne_eq, not_false_eq_true, if_true, if_false]
    refine GrOk.pure fun u => ?_
    refine GrOk.bind (hp := Prod.snd) ?_ fun ⟨u, h'⟩ g => ?_
    · cases rr.rdata with
      | none => exact GrOk.ub
      | some rd => exact gr_rdataToUbuf (hp.resolve_left hs) g _ _ _
    · dsimp only at g ⊢
      split
      · exact GrOk.abort
      · exact GrOk.ok g

theorem gr_rrsetLoop {s : RRset} {sec : Nat} (hp : sec = 0 ∨ Spec.PlainRdata s.rrtype s.rrclass) : ∀ (l : List (Option CRdata)) (u : List UInt8) (h : Heap), Gr F h0 h →
    GrOk F h0 Prod.snd (oRrsetLoop F s sec l u h)
  | [], u, h, g => GrOk.ok g
  | r :: rs, u, h, g => by
    unfold oRrsetLoop
    exact GrOk.bind (gr_rrToUbuf (rr := ⟨s.rrttl, s.rrtype, s.rrclass, s.name, r⟩) hp g u) fun ⟨u, h'⟩ g => gr_rrsetLoop hp rs u h' g

theorem gr_rrsetToUbuf {s : RRset} {sec : Nat} (hp : sec = 0 ∨ Spec.PlainRdata s.rrtype s.rrclass) (g : Gr F h0 h) (u : List UInt8) :
    GrOk F h0 Prod.snd (oRrsetToUbuf F u s sec h) := by
  unfold oRrsetToUbuf
  split
  · cases s.rdatas with
    | nil => exact GrOk.ub
    | cons r rs => exact gr_rrsetLoop hp _ u h g
  · exact gr_rrsetLoop hp _ u h g

theorem gr_rrsToUbuf {sec : Nat} : ∀ (l : List RR) (_ : ∀ r ∈ l, Spec.PlainRR sec r) (u : List UInt8) (h : Heap), Gr F h0 h →
    GrOk F h0 Prod.snd (oRrsToUbuf F sec l u h)
  | [], _, u, h, g => GrOk.ok g
  | r :: rs, hp, u, h, g => by
    unfold oRrsToUbuf
    exact GrOk.bind (gr_rrToUbuf (hp r (List.mem_cons_self ..)) g u) fun ⟨u, h'⟩ g =>
      gr_rrsToUbuf rs (fun r hr => hp r (List.mem_cons_of_mem _ hr)) u h' g

theorem gr_msgEdns (g : Gr F h0 h) (e : Edns) : GrOk F h0 Prod.snd (oMsgEdns F e h) := by
  unfold oMsgEdns
  split
  · cases e.options with
    | none => exact GrOk.ok g
    | some o =>
      dsimp only
      refine GrOk.bind (gr_ubufNew g) fun ⟨v, h1⟩ g => ?_
      refine GrOk.bind (gr_rdataToUbuf plain_opt g _ _ _) fun ⟨t, h1⟩ g => ?_
      dsimp only at g ⊢
      split
      · exact GrOk.abort
      · refine GrOk.pure fun _ => ?_
        refine GrOk.bind (gr_ubufDestroy g _) fun h1 g => ?_
        exact GrOk.ok g
  · exact GrOk.ok g

theorem gr_messageToUbuf {m : Message} (hp : ∀ i, ∀ r ∈ Spec.secRecs m i, Spec.PlainRR i r) (g : Gr F h0 h) :
    GrOk F h0 Prod.snd (oMessageToUbuf F m h) := by
  unfold oMessageToUbuf
  refine GrOk.bind (gr_msgEdns g _) fun ⟨e, h⟩ g => ?_
  refine GrOk.bind (gr_rrsToUbuf _ (hp 0) _ _ g) fun ⟨u, h⟩ g => ?_
  refine GrOk.bind (gr_rrsToUbuf _ (hp 1) _ _ g) fun ⟨u, h⟩ g => ?_
  refine GrOk.bind (gr_rrsToUbuf _ (hp 2) _ _ g) fun ⟨u, h⟩ g => ?_
  exact gr_rrsToUbuf _ (hp 3) _ _ g

theorem gr_toStr {render : Heap → Outcome (List UInt8 × Heap)} (hr : ∀ h, Gr F h0 h → GrOk F h0 Prod.snd (render h)) (g : Gr F h0 h) :
    GrOk F h0 Prod.snd (oToStr F render h) := by
  unfold oToStr
  refine GrOk.bind (gr_ubufNew g) fun ⟨u, h1⟩ g => ?_
  refine GrOk.bind (hr _ g) fun ⟨t, h1⟩ g => ?_
  dsimp only at g ⊢
  split
  · exact GrOk.abort
  · refine GrOk.bind (gr_ubufDetach g _) fun ⟨b, u, h1⟩ g => ?_
    refine GrOk.bind (gr_ubufDestroy g _) fun h1 g => ?_
    exact GrOk.ok g

end

/-- **C115 (no refusal goes unnoticed: writing records and messages, in part).**  If one of the four functions returns, and no rdata with base64 text or SvcParams was
written, every request for memory that it made was granted. -/
theorem C115_print_granted_partial (F : Alloc) (rr : RR) (s : RRset) (a : RRsetArray) (m : Message) (sec : Nat) (h h' : Heap) (r : List UInt8 × Nat)
    (e : (Spec.PlainRR sec rr ∧ oRrToStr F rr sec h = ok (r, h')) ∨
      ((sec = 0 ∨ Spec.PlainRdata s.rrtype s.rrclass) ∧ oRrsetToStr F s sec h = ok (r, h')) ∨
      ((∀ r ∈ a.rrs, Spec.PlainRR sec r) ∧ oRrsetArrayToStr F a sec h = ok (r, h')) ∨
      ((∀ i, ∀ r ∈ Spec.secRecs m i, Spec.PlainRR i r) ∧ oMessageToStr F m h = ok (r, h'))) :
    ∀ n, h.next ≤ n → n < h'.next → F.fails n = false := by
  rcases e with ⟨hp, e⟩ | ⟨hp, e⟩ | ⟨hp, e⟩ | ⟨hp, e⟩
  · exact (gr_toStr (fun _ g => gr_rrToUbuf hp g []) (Gr.refl F h) _ e).2
  · exact (gr_toStr (fun _ g => gr_rrsetToUbuf hp g []) (Gr.refl F h) _ e).2
  · exact (gr_toStr (fun _ g => gr_rrsToUbuf _ hp [] _ g) (Gr.refl F h) _ e).2
  · exact (gr_toStr (fun _ g => gr_messageToUbuf hp g) (Gr.refl F h) _ e).2

/-- **C115.**  With SvcParams a refusal can go unnoticed, without harm: the buffer for the base64 text of an empty `ech` value is not written to, and `free(NULL)` does
nothing.  The text is the same as with enough memory. -/
theorem C115_unnoticed : ∃ h', oRdataToStr ⟨fun n => n = 2, fun _ => false⟩ [0, 1, 0, 0, 5, 0, 0] 7 64 1 ⟨0, []⟩ = ok ((ascii "1 . ech=", 1), h') ∧ 2 < h'.next ∧
    rdataToStr [0, 1, 0, 0, 5, 0, 0] 7 64 1 = ok (ascii "1 . ech=") := by
  exact ⟨⟨4, [1]⟩, by decide +kernel, by decide +kernel, by decide +kernel⟩

/-! ## Loading names -/

theorem oLoadLoop_le (F : Alloc) : ∀ (fuel : Nat) (f : List UInt8) (h : Heap), Le F false (oLoadLoop F fuel f h) (hLoadLoop fuel f h)
  | 0, f, h => Le.refl _ _
  | fuel + 1, f, h => by
    rw [oLoadLoop.eq_def, hLoadLoop.eq_def]
    dsimp only
    cases fgets 1280 f with
    | none => exact Le.refl _ _
    | some lr =>
      obtain ⟨line, rest⟩ := lr
      dsimp only
      by_cases h1 : line.getD 0 0 = 10 ∨ line.getD 0 0 = 32 ∨ line.getD 0 0 = 35
      · rw [if_pos h1, if_pos h1]; exact oLoadLoop_le F fuel rest h
      · rw [if_neg h1, if_neg h1]
        by_cases h2 : cstrOf line = []
        · rw [if_pos h2, if_pos h2]; exact Le.refl _ _
        · rw [if_neg h2, if_neg h2]
          refine Le.bind (oStrToNameGen_le F _ true h) fun ⟨r, h'⟩ _ => ?_
          cases r with
          | error e => exact Le.refl _ _
          | ok n => exact Le.bind (oLoadLoop_le F fuel rest h') fun _ _ => Le.refl _ _

/-- **C115 (loading names).**  If `wdns_file_load_names` returns, then either there was no memory to open the file, and it has returned `wdns_res_failure` without any name given
to the callback; or it has given the callback the names, and returned the code, that it would with enough memory, each name in a block of its own, these being the
only new ones.  Otherwise it ends as it would anyway, or a request has been refused and an assertion ends the process. -/
theorem C115_load_names (F : Alloc) (file : Option (List UInt8)) (h : Heap) :
    (F.fails h.next = true ∧ file ≠ none ∧ oFileLoadNames F file h = ok (([], .failure), ⟨h.next + 1, h.live⟩)) ∨
    (F.Refuses ∧ oFileLoadNames F file h = abort) ∨
    match fileLoadNames file with
    | ok (names, r) => ∃ bs n, oFileLoadNames F file h = ok ((names.zip bs, r), ⟨n, bs.reverse ++ h.live⟩) ∧ bs.length = names.length ∧
        (∀ b ∈ bs, h.next ≤ b) ∧ bs.Nodup
    | err e => oFileLoadNames F file h = err e
    | ub => oFileLoadNames F file h = ub
    | hang => oFileLoadNames F file h = hang
    | abort => oFileLoadNames F file h = abort := by
  cases file with
  | none => exact .inr (.inr ⟨[], h.next, by simp [oFileLoadNames], rfl, by simp, by simp⟩)
  | some f =>
    by_cases hf : F.fails h.next = true
    · left
      refine ⟨hf, by simp, ?_⟩
      unfold oFileLoadNames Heap.cMalloc
      simp [hf]
    · right
      have e : oFileLoadNames F (some f) h = oLoadLoop F (f.length + 1) f h.malloc.2 >>= fun x => x.2.free (some h.malloc.1) >>= fun h => ok (x.1, h) := by
        unfold oFileLoadNames Heap.cMalloc
        simp only [if_neg hf]
      have e' : hFileLoadNames (some f) h = hLoadLoop (f.length + 1) f h.malloc.2 >>= fun x => x.2.free (some h.malloc.1) >>= fun h => ok (x.1, h) := rfl
      have hle : Le F false (oFileLoadNames F (some f) h) (hFileLoadNames (some f) h) := by
        rw [e, e']
        exact Le.bind (oLoadLoop_le F _ _ _) fun _ _ => Le.refl _ _
      rcases hle with he | ⟨hF, he | ⟨he, _⟩⟩
      · right
        rw [he]
        cases hr : fileLoadNames (some f) with
        | ok r => exact C76_file_load_names (some f) h r.1 r.2 hr
        | _ =>
          have := hLoadLoop_sim (f.length + 1) f h.malloc.2
          rw [show loadLoop (f.length + 1) f = fileLoadNames (some f) from rfl, hr] at this
          dsimp only at this ⊢
          rw [e', this]; rfl
      · exact .inl ⟨hF, he⟩
      · simp at he

theorem gr_loadLoop {F : Alloc} {h0 : Heap} : ∀ (fuel : Nat) (f : List UInt8) (h : Heap), Gr F h0 h → GrOk F h0 Prod.snd (oLoadLoop F fuel f h)
  | 0, f, h, g => by rw [oLoadLoop.eq_def]; exact GrOk.hang
  | fuel + 1, f, h, g => by
    rw [oLoadLoop.eq_def]
    dsimp only
    cases fgets 1280 f with
    | none => exact GrOk.ok g
    | some lr =>
      obtain ⟨line, rest⟩ := lr
      dsimp only
      split
      · exact gr_loadLoop fuel rest h g
      · split
        · exact GrOk.ub
        · refine GrOk.bind (gr_strToNameGen g _ true) fun ⟨r, h'⟩ g => ?_
          cases r with
          | error e => exact GrOk.ok g
          | ok n => exact GrOk.bind (gr_loadLoop fuel rest h' g) fun ⟨r, h'⟩ g => GrOk.ok g

/-- **C115 (no refusal goes unnoticed: loading names).**  If the call returns anything but `wdns_res_failure`, every request for memory was granted. -/
theorem C115_load_names_granted (F : Alloc) (file : Option (List UInt8)) (h h' : Heap) (ns : List (CName × Nat)) (r : Res) (hr : r ≠ .failure)
    (e : oFileLoadNames F file h = ok ((ns, r), h')) : ∀ n, h.next ≤ n → n < h'.next → F.fails n = false := by
  cases file with
  | none => simp only [oFileLoadNames, ok.injEq, Prod.mk.injEq] at e; exact absurd e.1.2.symm hr
  | some f =>
    by_cases hf : F.fails h.next = true
    · unfold oFileLoadNames Heap.cMalloc at e
      simp only [hf, if_true, ok.injEq, Prod.mk.injEq] at e
      exact absurd e.1.2.symm hr
    · have key : GrOk F h Prod.snd (oFileLoadNames F (some f) h) := by
        unfold oFileLoadNames Heap.cMalloc
        simp only [if_neg hf]
        refine GrOk.bind (gr_loadLoop _ f _ ((Gr.refl F h).malloc (by simpa using hf))) fun ⟨r, h1⟩ g => ?_
        exact GrOk.bind (gr_free g _) fun h1 g => GrOk.ok g
      exact (key _ e).2

/-- Cases: a message is printed although a later request is refused; refusing the third request (the buffer for EDNS options or the new storage) ends the process; a
record with a key is undefined if its buffer is refused; names are loaded, or not opened, or the process ends at the second name. -/
example :
    (match oRrToStr ⟨fun n => n = 7, fun _ => false⟩ ⟨5, 1, 1, ⟨3, [1, 97, 0]⟩, some ⟨4, [10, 0, 0, 1]⟩⟩ 1 ⟨0, []⟩ with
      | ok ((t, b), h) => decide (t = ascii "a. 5 IN A 10.0.0.1\n" ∧ b = 1 ∧ h.live = [1])
      | _ => false) = true ∧
    oRrToStr ⟨fun n => n = 2, fun _ => false⟩ ⟨5, 1, 1, ⟨3, [1, 97, 0]⟩, some ⟨4, [10, 0, 0, 1]⟩⟩ 1 ⟨0, []⟩ = abort ∧
    oRrToStr ⟨fun n => n = 2, fun _ => false⟩ ⟨5, 61, 1, ⟨3, [1, 97, 0]⟩, some ⟨4, [10, 0, 0, 1]⟩⟩ 1 ⟨0, []⟩ = ub ∧
    (match oFileLoadNames ⟨fun n => n = 9, fun _ => false⟩ (some (ascii "# x\nA.b\nc\n")) ⟨0, []⟩ with
      | ok ((ns, r), h) => decide (ns.map (fun n => (n.1.data, n.2)) = [([1, 97, 1, 98, 0], 1), ([1, 99, 0], 2)] ∧ r = .success ∧ h.live = [2, 1])
      | _ => false) = true ∧
    (match oFileLoadNames ⟨fun n => n = 0, fun _ => false⟩ (some (ascii "# x\nA.b\nc\n")) ⟨0, []⟩ with
      | ok ((ns, r), h) => decide (ns.length = 0 ∧ r = .failure ∧ h.live = []) | _ => false) = true ∧
    (match oFileLoadNames ⟨fun n => n = 2, fun _ => false⟩ (some (ascii "# x\nA.b\nc\n")) ⟨0, []⟩ with | abort => true | _ => false) = true := by
  decide +kernel

/-- The message of `Props/Message.lean` has only records that are written without such requests, and is written. -/
example : (∀ d, recordDescr 1 = some d → d.applies 1 = true → .bytesB64 ∉ d.types ∧ .svcparams ∉ d.types) ∧
    (match parseMessage sampleMsg sampleMsg.length with
      | ok m => (match oMessageToStr ⟨fun n => n = 100, fun _ => false⟩ m ⟨0, []⟩ with | ok (_, h) => decide (h.live = [1]) | _ => false)
      | _ => false) = true := by
  refine ⟨?_, by decide +kernel⟩
  intro d hd _
  have : recordDescr 1 = some ⟨1, [.ipv4]⟩ := by rfl
  rw [this] at hd
  cases hd
  decide

end Wdns
