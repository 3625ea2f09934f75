import Verif.Props.Oom

/-!
# Running out of memory: only the requests of the call matter (C115)

Property theorems: C115_local_*.
-/

namespace Wdns
open Outcome

/-- No request made at a moment from `a` to `b` is refused. -/
def Alloc.Quiet (F : Alloc) (a b : Nat) : Prop := ∀ n, a ≤ n → n ≤ b → F.fails n = false ∧ F.grows n = false

theorem Alloc.Quiet.mono {F : Alloc} {a b a' b' : Nat} (h : F.Quiet a b) (ha : a ≤ a') (hb : b' ≤ b) : F.Quiet a' b' :=
  fun n h1 h2 => h n (ha.trans h1) (h2.trans hb)

/-- `x` (with enough memory) does not turn the moment back, and `y` (with the allocator `F`) is the same if `F` refuses nothing in the meantime. -/
def Loc (F : Alloc) {α : Type} (nx : α → Nat) (k : Nat) (y x : Outcome α) : Prop :=
  ∀ a, x = ok a → k ≤ nx a ∧ (F.Quiet k (nx a) → y = x)

section
variable {F : Alloc} {α β : Type} {nx : α → Nat} {ny : β → Nat} {k : Nat}

theorem Loc.ok {a : α} (h : k ≤ nx a) : Loc F nx k (Outcome.ok a) (Outcome.ok a) := by
  intro b hb
  cases hb
  exact ⟨h, fun _ => rfl⟩

theorem Loc.bind {y x : Outcome α} {f g : α → Outcome β} (nx : α → Nat) (h : Loc F nx k y x)
    (hf : ∀ a, x = Outcome.ok a → Loc F ny (nx a) (f a) (g a)) : Loc F ny k (y >>= f) (x >>= g) := by
  intro b hb
  obtain ⟨a, ha, hg⟩ := bind_eq_ok.mp hb
  obtain ⟨h1, h2⟩ := h a ha
  obtain ⟨h3, h4⟩ := hf a ha b hg
  refine ⟨h1.trans h3, fun hq => ?_⟩
  rw [h2 (hq.mono le_rfl h3), ha, ok_bind, ok_bind, h4 (hq.mono h1 le_rfl)]

theorem Loc.same {x : Outcome α} {f g : α → Outcome β} (hf : ∀ a, x = Outcome.ok a → Loc F ny k (f a) (g a)) :
    Loc F ny k (x >>= f) (x >>= g) := by
  intro b hb
  obtain ⟨a, ha, hg⟩ := bind_eq_ok.mp hb
  rw [ha, ok_bind, ok_bind]
  exact hf a ha b hg

theorem Loc.err {y : Outcome α} {e : Res} : Loc F nx k y (Outcome.err e) := fun _ h => by simp at h
theorem Loc.ub {y : Outcome α} : Loc F nx k y Outcome.ub := fun _ h => by simp at h
theorem Loc.hang {y : Outcome α} : Loc F nx k y Outcome.hang := fun _ h => by simp at h
theorem Loc.abort {y : Outcome α} : Loc F nx k y Outcome.abort := fun _ h => by simp at h

theorem Loc.abort_if {y x : Outcome α} (h : Loc F nx k y x) : Loc F nx k (if F.grows k then Outcome.abort else y) x := by
  intro a ha
  obtain ⟨h1, h2⟩ := h a ha
  refine ⟨h1, fun hq => ?_⟩
  rw [(hq k le_rfl h1).2]
  exact h2 hq

theorem Loc.weaken {y x : Outcome α} {k' : Nat} (hk : k ≤ k') (h : Loc F nx k' y x) : Loc F nx k y x := by
  intro a ha
  obtain ⟨h1, h2⟩ := h a ha
  exact ⟨hk.trans h1, fun hq => h2 (hq.mono hk le_rfl)⟩

theorem Loc.malloc {h : Heap} {f : Nat × Heap → Outcome α} {x : Outcome α}
    (hf : Loc F nx h.malloc.2.next (f h.malloc) x) : Loc F nx h.next (h.myMalloc F >>= f) x := by
  have h0 := hf.weaken (k := h.next) (Nat.le_succ _)
  intro a ha
  obtain ⟨h1, h2⟩ := h0 a ha
  refine ⟨h1, fun hq => ?_⟩
  unfold Heap.myMalloc
  rw [(hq h.next le_rfl h1).1]
  exact h2 hq

theorem free_next {h h' : Heap} {p : Ptr} (e : h.free p = Outcome.ok h') : h'.next = h.next := by
  unfold Heap.free at e
  cases p with
  | none => cases e; rfl
  | some b =>
    dsimp only at e
    split at e
    · cases e; rfl
    · simp at e

theorem Loc.realloc {h : Heap} {p : Ptr} {f g : Nat × Heap → Outcome α}
    (hf : ∀ h', h.free p = Outcome.ok h' → Loc F nx h'.malloc.2.next (f h'.malloc) (g h'.malloc)) :
    Loc F nx h.next (h.myRealloc F p >>= f) (h.realloc p >>= g) := by
  unfold Heap.myRealloc Heap.realloc
  cases hr : h.free p with
  | ok h' => exact free_next hr ▸ Loc.malloc (hf h' hr)
  | err e => exact Loc.err
  | ub => exact Loc.ub
  | hang => exact Loc.hang
  | abort => exact Loc.abort

theorem Loc.free {h : Heap} {p : Ptr} {f g : Heap → Outcome α} (hf : ∀ h', Loc F nx h'.next (f h') (g h')) :
    Loc F nx h.next (h.free p >>= f) (h.free p >>= g) :=
  Loc.bind Heap.next (fun a ha => ⟨(free_next ha).ge, fun _ => rfl⟩) fun _ _ => hf _

end

theorem oParseRdata_loc (F : Alloc) (mem : List UInt8) (p eop rdata rdlen rrtype rrclass : Nat) (h : Heap) :
    Loc F (·.2.next) h.next (oParseRdata F mem p eop rdata rdlen rrtype rrclass h) (hParseRdata mem p eop rdata rdlen rrtype rrclass h) := by
  unfold oParseRdata hParseRdata
  refine Loc.malloc (Loc.malloc (Loc.abort_if ?_))
  dsimp only
  cases parseRdata mem p eop rdata rdlen rrtype rrclass with
  | ok r => exact Loc.malloc (Loc.same fun _ _ => Loc.free fun _ => Loc.free fun _ => Loc.ok le_rfl)
  | err e => exact Loc.free fun _ => Loc.free fun _ => Loc.ok le_rfl
  | ub => exact Loc.ub
  | hang => exact Loc.hang
  | abort => exact Loc.abort

theorem oParseMessageRr_loc (F : Alloc) (sec : Nat) (mem : List UInt8) (p eop data : Nat) (h : Heap) :
    Loc F (·.2.next) h.next (oParseMessageRr F sec mem p eop data h) (hParseMessageRr sec mem p eop data h) := by
  unfold oParseMessageRr hParseMessageRr
  rcases unpackName maxlenName mem p eop data with ⟨nm, len⟩ | e | _ | _ | _
  · refine Loc.malloc ?_
    refine Loc.same ?_
    rintro ⟨src, x⟩ -
    dsimp only
    by_cases h1 : src + 4 > eop ∨ sec ≠ 0 ∧ src + 10 > eop
    · rw [if_pos h1, if_pos h1]
      exact Loc.free fun _ => Loc.ok le_rfl
    · rw [if_neg h1, if_neg h1]
      refine Loc.same fun _ _ => Loc.same fun _ _ => Loc.same fun _ _ => Loc.same fun _ _ => ?_
      by_cases h2 : sec = 0
      · rw [if_pos h2, if_pos h2]
        exact Loc.ok le_rfl
      · rw [if_neg h2, if_neg h2]
        refine Loc.same fun _ _ => Loc.same fun _ _ => Loc.same fun _ _ => Loc.same fun _ _ => Loc.same fun _ _ => Loc.same fun _ _ => ?_
        split
        · exact Loc.free fun _ => Loc.ok le_rfl
        · refine Loc.bind _ (oParseRdata_loc F _ _ _ _ _ _ _ _) ?_
          rintro ⟨e | ⟨rdata, rb⟩, h'⟩ -
          · exact Loc.free fun _ => Loc.ok le_rfl
          · exact Loc.ok le_rfl
  · exact Loc.ok le_rfl
  · exact Loc.ub
  · exact Loc.hang
  · exact Loc.abort

theorem oInsertFind_loc (F : Alloc) (blk : Ptr) (rr : HRR) (h : Heap) (l : List HRRset) :
    Loc F (fun r => r.elim h.next (·.2.next)) h.next (oInsertFind F blk rr h l) (hInsertFind blk rr h l) := by
  induction l with
  | nil => exact Loc.ok le_rfl
  | cons s rest ih =>
    unfold oInsertFind hInsertFind
    refine Loc.same fun _ _ => Loc.same fun _ _ => Loc.same fun _ _ => Loc.same fun _ _ => ?_
    split
    · split
      · exact Loc.abort
      · cases rr.val.rdata with
        | none => exact Loc.ub
        | some d => exact Loc.realloc fun _ _ => Loc.ok le_rfl
    · refine Loc.bind _ ih fun r _ => ?_
      cases r with
      | none => exact Loc.ok le_rfl
      | some x => exact Loc.ok le_rfl

theorem hClearRr_loc (F : Alloc) (rr : HRR) (h : Heap) : Loc F (·.2.next) h.next (hClearRr rr h) (hClearRr rr h) := by
  unfold hClearRr
  exact Loc.free fun _ => Loc.free fun _ => Loc.ok le_rfl

theorem oInsertRr_loc (F : Alloc) (a : HArr) (rr : HRR) (sec : Nat) (h : Heap) :
    Loc F (·.2.next) h.next (oInsertRr F a rr sec h) (hInsertRr a rr sec h) := by
  unfold oInsertRr hInsertRr
  split
  · exact Loc.abort
  · refine Loc.realloc fun h' _ => Loc.malloc ?_
    dsimp only
    refine Loc.same fun _ _ => Loc.same fun newRr _ => ?_
    by_cases hs : sec = 0
    · have hn : ¬ sec ≠ 0 := fun hh => hh hs
      simp only [if_pos hs, if_neg hn, ok_bind]
      split
      · exact Loc.abort
      · refine Loc.realloc fun h'' _ => ?_
        exact Loc.bind _ (hClearRr_loc F _ _) fun _ _ => Loc.ok le_rfl
    · have hn : sec ≠ 0 := hs
      simp only [if_neg hs, if_pos hn]
      refine Loc.same fun _ _ => Loc.malloc ?_
      simp only [ok_bind]
      refine Loc.bind _ (oInsertFind_loc F _ _ _ _) fun found _ => ?_
      rcases found with _ | ⟨rs, h''⟩
      · dsimp only [Option.elim]
        split
        · exact Loc.abort
        · refine Loc.realloc fun h'' _ => ?_
          refine Loc.malloc ?_
          exact Loc.bind _ (hClearRr_loc F _ _) fun _ _ => Loc.ok le_rfl
      · exact Loc.bind _ (hClearRr_loc F _ _) fun _ _ => Loc.ok le_rfl

theorem hParseEdns_loc (F : Alloc) (hdr : Hdr) (rr : HRR) (h : Heap) : Loc F (·.2.2.next) h.next (hParseEdns hdr rr h) (hParseEdns hdr rr h) := by
  unfold hParseEdns
  exact Loc.bind _ (hClearRr_loc F _ _) fun _ _ => Loc.ok le_rfl

theorem oParseSection_loc (F : Alloc) (sec : Nat) (mem : List UInt8) (len : Nat) (n : Nat) (st : HSecState) (h : Heap) :
    Loc F (·.2.2.next) h.next (oParseSection F sec mem len n st h) (hParseSection sec mem len n st h) := by
  induction n generalizing st h with
  | zero => exact Loc.ok le_rfl
  | succ n ih =>
    unfold oParseSection hParseSection
    split
    · exact Loc.ok le_rfl
    · refine Loc.bind _ (oParseMessageRr_loc F _ _ _ _ _ _) ?_
      rintro ⟨e | ⟨rr, rrlen⟩, h'⟩ -
      · exact Loc.ok le_rfl
      · dsimp only
        split
        · exact Loc.bind _ (hParseEdns_loc F _ _ _) fun _ _ => ih _ _
        · exact Loc.bind _ (oInsertRr_loc F _ _ _ _) fun _ _ => ih _ _

theorem oParseSections_loc (F : Alloc) (mem : List UInt8) (len : Nat) (l : List (Nat × Nat)) (p : Nat) (hdr : Hdr) (o : Ptr)
    (done : List HArr) (h : Heap) :
    Loc F (·.2.2.2.2.next) h.next (oParseSections F mem len l p hdr o done h) (hParseSections mem len l p hdr o done h) := by
  induction l generalizing p hdr o done h with
  | nil => exact Loc.ok le_rfl
  | cons x rest ih =>
    unfold oParseSections hParseSections
    refine Loc.bind _ (oParseSection_loc F _ _ _ _ _ _) ?_
    rintro ⟨e | _ | _, st, h'⟩ -
    · exact Loc.ok le_rfl
    · exact ih _ _ _ _ _
    · exact Loc.ok le_rfl

theorem hFreeItems_loc (F : Alloc) (arr : Ptr) (ps : List Ptr) (h : Heap) : Loc F Heap.next h.next (hFreeItems arr ps h) (hFreeItems arr ps h) := by
  induction ps generalizing h with
  | nil => exact Loc.ok le_rfl
  | cons p ps ih => exact Loc.same fun _ _ => Loc.free fun _ => ih _

theorem hClearRrset_loc (F : Alloc) (s : HRRset) (h : Heap) : Loc F (·.2.next) h.next (hClearRrset s h) (hClearRrset s h) := by
  unfold hClearRrset
  exact Loc.bind _ (hFreeItems_loc F _ _ _) fun _ _ => Loc.free fun _ => Loc.free fun _ => Loc.ok le_rfl

theorem hClearRrs_loc (F : Alloc) (blk : Ptr) (l : List HRR) (h : Heap) : Loc F Heap.next h.next (hClearRrs blk l h) (hClearRrs blk l h) := by
  induction l generalizing h with
  | nil => exact Loc.ok le_rfl
  | cons p ps ih => exact Loc.same fun _ _ => Loc.bind _ (hClearRr_loc F _ _) fun _ _ => ih _

theorem hClearRrsets_loc (F : Alloc) (blk : Ptr) (l : List HRRset) (h : Heap) : Loc F Heap.next h.next (hClearRrsets blk l h) (hClearRrsets blk l h) := by
  induction l generalizing h with
  | nil => exact Loc.ok le_rfl
  | cons p ps ih => exact Loc.same fun _ _ => Loc.bind _ (hClearRrset_loc F _ _) fun _ _ => ih _

theorem hClearArr_loc (F : Alloc) (a : HArr) (h : Heap) : Loc F (·.2.next) h.next (hClearArr a h) (hClearArr a h) := by
  unfold hClearArr
  exact Loc.bind _ (hClearRrs_loc F _ _ _) fun _ _ => Loc.free fun _ => Loc.bind _ (hClearRrsets_loc F _ _ _) fun _ _ => Loc.free fun _ => Loc.ok le_rfl

theorem hClearArrs_loc (F : Alloc) (l : List HArr) (h : Heap) : Loc F (·.2.next) h.next (hClearArrs l h) (hClearArrs l h) := by
  induction l generalizing h with
  | nil => exact Loc.ok le_rfl
  | cons p ps ih => exact Loc.bind _ (hClearArr_loc F _ _) fun _ _ => Loc.bind _ (ih _) fun _ _ => Loc.ok le_rfl

theorem hClearMessage_loc (F : Alloc) (m : HMsg) (h : Heap) : Loc F (·.2.next) h.next (hClearMessage m h) (hClearMessage m h) := by
  unfold hClearMessage
  exact Loc.free fun _ => Loc.bind _ (hClearArrs_loc F _ _) fun _ _ => Loc.ok le_rfl

theorem oParseMessage_loc (F : Alloc) (mem : List UInt8) (len : Nat) (h : Heap) :
    Loc F (·.2.2.next) h.next (oParseMessage F mem len h) (hParseMessage mem len h) := by
  unfold oParseMessage hParseMessage
  split
  · exact Loc.ok le_rfl
  · refine Loc.same fun _ _ => ?_
    refine Loc.bind _ (oParseSections_loc F _ _ _ _ _ _ _ _) ?_
    rintro ⟨e | _, hdr, opts, secs, h'⟩ -
    · exact Loc.bind _ (hClearMessage_loc F _ _) fun _ _ => Loc.ok le_rfl
    · exact Loc.ok le_rfl

theorem hCopyBytes_loc {F : Alloc} {k : Nat} (s : HRRset) (buf : List UInt8) (sz off n : Nat) (h : Heap) (hk : k = h.next)
    {f g : List UInt8 → Outcome (Except Res Unit × HRRset × Heap)} (hf : ∀ x, Loc F (·.2.2.next) k (f x) (g x)) :
    Loc F (·.2.2.next) k (hCopyBytes s buf sz off n h f) (hCopyBytes s buf sz off n h g) := by
  subst hk
  unfold hCopyBytes
  split
  · exact Loc.bind _ (hClearRrset_loc F _ _) fun _ _ => Loc.ok le_rfl
  · exact Loc.same fun x _ => hf x

theorem oDeserializeRdatas_loc (F : Alloc) (le : Bool) (buf : List UInt8) (sz : Nat) (s : HRRset) (n off : Nat) (acc : List CRdata)
    (accp : List Ptr) (h : Heap) :
    Loc F (·.2.2.next) h.next (oDeserializeRdatas F le buf sz s n off acc accp h) (hDeserializeRdatas le buf sz s n off acc accp h) := by
  induction n generalizing off acc accp h with
  | zero => exact Loc.ok le_rfl
  | succ n ih =>
    unfold oDeserializeRdatas hDeserializeRdatas
    refine hCopyBytes_loc _ _ _ _ _ _ rfl fun x => ?_
    refine Loc.same fun _ _ => Loc.malloc ?_
    exact hCopyBytes_loc _ _ _ _ _ _ rfl fun y => ih _ _ _ _

theorem oDeserializeRrset_loc (F : Alloc) (le : Bool) (buf : List UInt8) (sz : Nat) (h : Heap) :
    Loc F (·.2.2.next) h.next (oDeserializeRrset F le buf sz h) (hDeserializeRrset le buf sz h) := by
  unfold oDeserializeRrset hDeserializeRrset
  refine hCopyBytes_loc _ _ _ _ _ _ rfl fun x => Loc.malloc ?_
  refine hCopyBytes_loc _ _ _ _ _ _ rfl fun x => hCopyBytes_loc _ _ _ _ _ _ rfl fun x => hCopyBytes_loc _ _ _ _ _ _ rfl fun x =>
    hCopyBytes_loc _ _ _ _ _ _ rfl fun x => hCopyBytes_loc _ _ _ _ _ _ rfl fun x => Loc.malloc ?_
  exact oDeserializeRdatas_loc F _ _ _ _ _ _ _ _ _

theorem oStrToNameGen_loc (F : Alloc) (str : List UInt8) (d : Bool) (h : Heap) :
    Loc F (·.2.next) h.next (oStrToNameGen F str d h) (hStrToNameGen str d h) := by
  unfold oStrToNameGen hStrToNameGen
  split
  · exact Loc.malloc (Loc.ok le_rfl)
  · refine Loc.malloc ?_
    dsimp only
    cases stnLoop maxlenName str d (str.length + 2) 0 str.length 0 1 [0] 0 with
    | ok r => exact Loc.ok le_rfl
    | err e => exact Loc.free fun _ => Loc.ok le_rfl
    | ub => exact Loc.ub
    | hang => exact Loc.hang
    | abort => exact Loc.abort

/-! ## Reading rdata -/

theorem Loc.cMalloc {F : Alloc} {α : Type} {nx : α → Nat} {h : Heap} {f : Ptr → Heap → Outcome α} {x : Outcome α}
    (hf : Loc F nx h.malloc.2.next (f (some h.malloc.1) h.malloc.2) x) : Loc F nx h.next (f (h.cMalloc F).1 (h.cMalloc F).2) x := by
  have h0 := hf.weaken (k := h.next) (Nat.le_succ _)
  intro a ha
  obtain ⟨h1, h2⟩ := h0 a ha
  refine ⟨h1, fun hq => ?_⟩
  unfold Heap.cMalloc
  rw [(hq h.next le_rfl h1).1]
  exact h2 hq

theorem Loc.asked {F : Alloc} {α : Type} {nx : α → Nat} {h : Heap} {f : Ptr × Heap → Outcome α} {x : Outcome α}
    (hf : Loc F nx h.malloc.2.next (f (some h.malloc.1, h.malloc.2)) x) : ∀ g, h.cMalloc F = g → Loc F nx h.next (f g) x := by
  rintro g rfl
  exact Loc.cMalloc (f := fun a b => f (a, b)) hf

theorem oBase64_loc (F : Alloc) (s : List UInt8) (h : Heap) : Loc F (·.2.next) h.next (oBase64 F s h) (hBase64 s h) := by
  unfold oBase64 hBase64
  refine Loc.cMalloc (f := fun b h => h.use b >>= fun _ => base64StrToBytes s >>= fun r => h.use b >>= fun _ =>
    h.free b >>= fun h => Outcome.ok (r, h)) ?_
  dsimp only
  rw [use_malloc]
  simp only [ok_bind]
  refine Loc.same fun _ _ => ?_
  first
    | exact Loc.free fun _ => Loc.ok le_rfl
    | exact Loc.same fun _ _ => Loc.free fun _ => Loc.ok le_rfl

theorem oSvcEchTok_loc (F : Alloc) (c u : List UInt8) (h : Heap) : Loc F (·.2.next) h.next (oSvcEchTok F c u h) (hSvcEchTok c u h) := by
  unfold oSvcEchTok hSvcEchTok
  rcases (strtok (fun x => decide (x = 32)) c []).head? with _ | tok
  · exact Loc.ok le_rfl
  · dsimp only
    split
    · exact Loc.ok le_rfl
    · exact Loc.bind _ (oBase64_loc F _ _) fun _ _ => Loc.ok le_rfl

theorem oStrToSvcparam_loc (F : Alloc) (u : List UInt8) (key : Nat) (v : Option (List UInt8)) (h : Heap) :
    Loc F (·.2.next) h.next (oStrToSvcparam F u key v h) (hStrToSvcparam u key v h) := by
  unfold oStrToSvcparam hStrToSvcparam
  split
  · cases v with
    | none => exact Loc.ub
    | some v =>
      refine Loc.bind _ (oSvcEchTok_loc F _ _ _) ?_
      rintro ⟨⟨r, n, u2⟩, h'⟩ -
      dsimp only
      split
      · exact Loc.ok le_rfl
      · exact Loc.ok le_rfl
  · exact Loc.same fun _ _ => Loc.ok le_rfl

theorem oSvcparams_loc (F : Alloc) (n : Nat) (s u : List UInt8) (h : Heap) :
    Loc F (·.2.next) h.next (oSvcparams F n s u h) (hSvcparams n s u h) := by
  induction n generalizing s u h with
  | zero => exact Loc.hang
  | succ n ih =>
    unfold oSvcparams hSvcparams
    rcases s with _ | ⟨c, cs⟩
    · exact Loc.ok le_rfl
    · dsimp only
      split
      · exact ih _ _ _
      · generalize (c :: cs).takeWhile (fun c => decide (c ≠ 61 ∧ c ≠ 32)) = key
        generalize (c :: cs).drop key.length = val
        generalize hg : h.cMalloc F = g
        revert g; refine Loc.asked ?_
        dsimp only
        refine Loc.same fun _ _ => Loc.free fun h2 => ?_
        split
        · exact Loc.ok le_rfl
        · split
          · split
            · exact Loc.ok le_rfl
            · refine Loc.bind _ (oStrToSvcparam_loc F _ _ _ _) ?_
              rintro ⟨⟨r, u⟩, h'⟩ -
              dsimp only
              split
              · exact Loc.ok le_rfl
              · exact ih _ _ _
          · split
            · exact Loc.ok le_rfl
            · generalize hg : h2.cMalloc F = g
              revert g; refine Loc.asked ?_
              dsimp only
              rw [use_malloc]
              simp only [ok_bind]
              refine Loc.bind _ (oStrToSvcparam_loc F _ _ _ _) ?_
              rintro ⟨⟨r, u⟩, h'⟩ -
              dsimp only
              refine Loc.same fun _ _ => Loc.free fun _ => ?_
              split
              · exact Loc.ok le_rfl
              · exact ih _ _ _

theorem hU16Destroy_loc (F : Alloc) (b v : Nat) (h : Heap) : Loc F Heap.next h.next (hU16Destroy b v h) (hU16Destroy b v h) := by
  unfold hU16Destroy
  refine Loc.free fun h' => ?_
  exact fun a ha => ⟨(free_next ha).ge, fun _ => rfl⟩

theorem hUbufDestroy_loc (F : Alloc) (u : HUbuf) (h : Heap) : Loc F Heap.next h.next (hUbufDestroy u h) (hUbufDestroy u h) := by
  unfold hUbufDestroy
  refine Loc.same fun _ _ => Loc.free fun h' => ?_
  exact fun a ha => ⟨(free_next ha).ge, fun _ => rfl⟩

theorem oU16Add_loc (F : Alloc) (v n cap : Nat) (h : Heap) : Loc F (·.2.next) h.next (oU16Add F v n cap h) (hU16Add v n cap h) := by
  unfold oU16Add hU16Add
  split
  · exact Loc.realloc fun _ _ => Loc.ok le_rfl
  · exact Loc.same fun _ _ => Loc.ok le_rfl

theorem oTypes_loc (F : Alloc) (b n : Nat) (s : Option (List UInt8)) (v k cap : Nat) (h : Heap) :
    Loc F (·.2.next) h.next (oTypes F b n s v k cap h) (hTypes b n s v k cap h) := by
  induction n generalizing s v k cap h with
  | zero => cases s <;> exact Loc.hang
  | succ n ih =>
    cases s with
    | none => exact Loc.ok le_rfl
    | some s =>
      unfold oTypes hTypes
      rcases s with _ | ⟨c, cs⟩
      · exact Loc.ok le_rfl
      · dsimp only
        split
        · exact ih _ _ _ _ _
        · generalize hg : h.cMalloc F = g
          revert g; refine Loc.asked ?_
          dsimp only
          rw [use_malloc]
          simp only [ok_bind]
          refine Loc.same fun t _ => ?_
          split
          · exact Loc.free fun _ => Loc.bind _ (hU16Destroy_loc F _ _ _) fun _ _ => Loc.ok le_rfl
          · refine Loc.free fun _ => Loc.bind _ (oU16Add_loc F _ _ _ _) fun _ _ => ?_
            exact Loc.bind _ (ih _ _ _ _ _) fun _ _ => Loc.ok le_rfl

theorem oBitmap_loc (F : Alloc) (s u : List UInt8) (h : Heap) : Loc F (·.2.next) h.next (oBitmap F s u h) (hBitmap s u h) := by
  unfold oBitmap hBitmap
  refine Loc.malloc (Loc.malloc ?_)
  refine Loc.bind _ (oTypes_loc F _ _ _ _ _ _ _) ?_
  rintro ⟨_ | ⟨ts, v⟩, h'⟩ -
  · exact Loc.ok le_rfl
  · exact Loc.same fun _ _ => Loc.bind _ (hU16Destroy_loc F _ _ _) fun _ _ => Loc.ok le_rfl

theorem oPrefixAddr_loc (F : Alloc) (pl : Nat) (s u : List UInt8) (h : Heap) :
    Loc F (·.2.next) h.next (oPrefixAddr F pl s u h) (hPrefixAddr pl s u h) := by
  unfold oPrefixAddr hPrefixAddr
  split
  · exact Loc.ok le_rfl
  · generalize hg : h.cMalloc F = g
    revert g; refine Loc.asked ?_
    dsimp only
    refine Loc.same fun _ _ => Loc.free fun h' a ha => ⟨?_, fun _ => rfl⟩
    revert ha
    repeat' split
    all_goals
      intro ha
      cases ha
      exact le_rfl

theorem oPrefix_loc (F : Alloc) (s u : List UInt8) (h : Heap) : Loc F (·.2.next) h.next (oPrefix F s u h) (hPrefix s u h) := by
  unfold oPrefix hPrefix
  split
  · rcases scanfU 8 s with _ | _ | pl
    · exact Loc.ub
    · exact Loc.ok le_rfl
    · dsimp only
      split
      · exact Loc.ok le_rfl
      · exact oPrefixAddr_loc F _ _ _ _
  · exact Loc.ok le_rfl

theorem oField_loc (F : Alloc) (t : Rdf) (s u : List UInt8) (h : Heap) : Loc F (·.2.next) h.next (oField F t s u h) (hField t s u h) := by
  have hname : Loc F (·.2.next) h.next (oField F .name s u h) (hField .name s u h) := by
    unfold oField hField
    dsimp only
    generalize hg : h.cMalloc F = g
    revert g; refine Loc.asked ?_
    dsimp only
    generalize hg : h.malloc.2.cMalloc F = g
    revert g; refine Loc.asked ?_
    dsimp only
    refine Loc.same fun _ _ => ?_
    rw [use_malloc]
    simp only [ok_bind]
    refine Loc.bind _ (oStrToNameGen_loc F _ _ _) ?_
    rintro ⟨e | ⟨n, db⟩, h'⟩ -
    · exact Loc.free fun _ => Loc.free fun _ => Loc.ok le_rfl
    · exact Loc.same fun _ _ => Loc.same fun _ _ => Loc.free fun _ => Loc.same fun _ _ => Loc.free fun _ => Loc.free fun _ => Loc.ok le_rfl
  have plain : ∀ t, Loc F (·.2.next) h.next (sField t s u >>= fun r => Outcome.ok (r, h)) (sField t s u >>= fun r => Outcome.ok (r, h)) :=
    fun t => Loc.same fun _ _ => Loc.ok le_rfl
  cases t with
  | name => exact hname
  | uname => exact hname
  | bytesB64 =>
    unfold oField hField
    exact Loc.bind _ (oBase64_loc F _ _) fun _ _ => Loc.ok le_rfl
  | ipv6prefix => exact oPrefix_loc F _ _ _
  | hash =>
    unfold oField hField
    dsimp only
    split
    · exact Loc.ok le_rfl
    · generalize hg : h.cMalloc F = g
      revert g; refine Loc.asked ?_
      dsimp only
      rw [use_malloc]
      simp only [ok_bind]
      cases base32Decode (tokOf s).length (tokOf s) with
      | none => exact Loc.free fun _ => Loc.ok le_rfl
      | some w =>
        dsimp only
        split
        · exact Loc.free fun _ => Loc.ok le_rfl
        · exact Loc.free fun _ => Loc.ok le_rfl
  | ipv4 =>
    unfold oField hField
    dsimp only
    generalize hg : h.cMalloc F = g
    revert g; refine Loc.asked ?_
    exact Loc.same fun _ _ => Loc.same fun _ _ => Loc.free fun _ => Loc.ok le_rfl
  | ipv6 =>
    unfold oField hField
    dsimp only
    generalize hg : h.cMalloc F = g
    revert g; refine Loc.asked ?_
    exact Loc.same fun _ _ => Loc.same fun _ _ => Loc.free fun _ => Loc.ok le_rfl
  | rrtype =>
    unfold oField hField
    dsimp only
    generalize hg : h.cMalloc F = g
    revert g; refine Loc.asked ?_
    refine Loc.same fun _ _ => Loc.same fun _ _ => Loc.free fun _ => ?_
    split
    · exact Loc.ok le_rfl
    · exact Loc.ok le_rfl
  | svcparams => exact oSvcparams_loc F _ _ _ _
  | typeBitmap => exact oBitmap_loc F _ _ _
  | _ => exact plain _

theorem oFields_loc (F : Alloc) (ts : List Rdf) (s : Option (List UInt8)) (u : List UInt8) (h : Heap) :
    Loc F (·.2.next) h.next (oFields F ts s u h) (hFields ts s u h) := by
  induction ts generalizing s u h with
  | nil => exact Loc.ok le_rfl
  | cons t ts ih =>
    cases s with
    | none => exact Loc.ok le_rfl
    | some s =>
      unfold oFields hFields
      split
      · exact Loc.ok le_rfl
      · refine Loc.bind _ (oField_loc F _ _ _ _) ?_
        rintro ⟨r, h'⟩ -
        cases r with
        | go s u => exact Loc.abort_if (ih _ _ _)
        | bad r u => exact Loc.ok le_rfl

theorem oStrToRdataUbuf_loc (F : Alloc) (u s : List UInt8) (rrtype rrclass : Nat) (h : Heap) :
    Loc F (·.2.next) h.next (oStrToRdataUbuf F u s rrtype rrclass h) (hStrToRdataUbuf u s rrtype rrclass h) := by
  unfold oStrToRdataUbuf hStrToRdataUbuf
  refine Loc.bind (fun r => r.2.next) ?_ ?_
  · rcases recordDescr rrtype with _ | d
    · exact Loc.same fun _ _ => Loc.ok le_rfl
    · dsimp only
      split
      · exact oFields_loc F _ _ _ _
      · exact Loc.ok le_rfl
  · rintro ⟨r, h'⟩ -
    cases r with
    | go s u => exact Loc.ok le_rfl
    | bad r u => exact Loc.ok le_rfl

theorem oUbufDetach_loc (F : Alloc) (u : HUbuf) (h : Heap) : Loc F (·.2.2.next) h.next (oUbufDetach F u h) (hUbufDetach u h) := by
  unfold oUbufDetach hUbufDetach
  exact Loc.same fun _ _ => Loc.malloc (Loc.ok le_rfl)

theorem Loc.ubufNew {F : Alloc} {α : Type} {nx : α → Nat} {h : Heap} {f : HUbuf × Heap → Outcome α} {x : Outcome α}
    (hf : Loc F nx (hUbufNew h).2.next (f (hUbufNew h)) x) : Loc F nx h.next (oUbufNew F h >>= f) x := by
  have e : (oUbufNew F h >>= f) = (h.myMalloc F >>= fun b => b.2.myMalloc F >>= fun v => f (⟨b.1, v.1⟩, v.2)) := by
    unfold oUbufNew Heap.myMalloc
    split
    · rfl
    · simp only [ok_bind]
      split <;> rfl
  rw [e]
  exact Loc.malloc (Loc.malloc hf)

theorem oStrToRdata_loc (F : Alloc) (s : List UInt8) (rrtype rrclass : Nat) (h : Heap) :
    Loc F (·.2.next) h.next (oStrToRdata F s rrtype rrclass h) (hStrToRdata s rrtype rrclass h) := by
  unfold oStrToRdata hStrToRdata
  refine Loc.ubufNew ?_
  refine Loc.bind _ (oStrToRdataUbuf_loc F _ _ _ _ _) ?_
  rintro ⟨⟨r, w⟩, h'⟩ -
  dsimp only
  split
  · exact Loc.bind _ (oUbufDetach_loc F _ _) fun _ _ => Loc.bind _ (hUbufDestroy_loc F _ _) fun _ _ => Loc.ok le_rfl
  · exact Loc.bind _ (hUbufDestroy_loc F _ _) fun _ _ => Loc.ok le_rfl

/-! ## Writing rdata -/

/-- Nothing is refused. -/
def Alloc.plenty : Alloc := ⟨fun _ => false, fun _ => false⟩

theorem plenty_myMalloc (h : Heap) : h.myMalloc .plenty = Outcome.ok h.malloc := rfl
theorem plenty_cMalloc (h : Heap) : h.cMalloc .plenty = (some h.malloc.1, h.malloc.2) := rfl
theorem plenty_ubufNew (h : Heap) : oUbufNew .plenty h = Outcome.ok (hUbufNew h) := rfl
theorem plenty_detach (u : HUbuf) (h : Heap) : oUbufDetach .plenty u h = hUbufDetach u h := rfl

theorem oBytesToBase64_loc (F : Alloc) (bs : List UInt8) (h : Heap) :
    Loc F (·.2.next) h.next (oBytesToBase64 F bs h) (oBytesToBase64 .plenty bs h) := by
  unfold oBytesToBase64
  rw [plenty_cMalloc]
  generalize hg : h.cMalloc F = g
  revert g; refine Loc.asked ?_
  dsimp only
  split
  · simp only [ok_bind]
    exact Loc.same fun _ _ => Loc.free fun _ => Loc.ok le_rfl
  · exact Loc.same fun _ _ => Loc.same fun _ _ => Loc.free fun _ => Loc.ok le_rfl

theorem oSvcparamToStr_loc (F : Alloc) (key : Nat) (v u : List UInt8) (h : Heap) :
    Loc F (·.2.next) h.next (oSvcparamToStr F key v u h) (oSvcparamToStr .plenty key v u h) := by
  unfold oSvcparamToStr
  split
  · exact Loc.bind _ (oBytesToBase64_loc F _ _) fun _ _ => Loc.ok le_rfl
  · exact Loc.same fun _ _ => Loc.ok le_rfl

theorem oNeed_loc {F : Alloc} (st : TState) (n : Nat) (h : Heap) {k k' : Outcome (TRes × Heap)} (hk : Loc F (·.2.next) h.next k k') :
    Loc F (·.2.next) h.next (oNeed st n h k) (oNeed st n h k') := by
  unfold oNeed
  split
  · exact Loc.ok le_rfl
  · exact hk

theorem oTSvcparams_loc (F : Alloc) (mem : List UInt8) (n : Nat) (st : TState) (h : Heap) :
    Loc F (·.2.next) h.next (oTSvcparams F mem n st h) (oTSvcparams .plenty mem n st h) := by
  induction n generalizing st h with
  | zero => exact Loc.hang
  | succ n ih =>
    unfold oTSvcparams
    split
    · refine oNeed_loc _ _ _ (Loc.same fun _ _ => Loc.same fun _ _ => ?_)
      dsimp only
      split
      · exact Loc.ok le_rfl
      · refine oNeed_loc _ _ _ (Loc.same fun _ _ => Loc.same fun _ _ => ?_)
        refine oNeed_loc _ _ _ (Loc.same fun _ _ => ?_)
        refine Loc.bind _ (oSvcparamToStr_loc F _ _ _ _) ?_
        rintro ⟨⟨u, r⟩, h'⟩ -
        dsimp only
        split
        · exact Loc.ok le_rfl
        · exact ih _ _
    · exact Loc.ok le_rfl

theorem oTField_loc (F : Alloc) (mem : List UInt8) (t : Rdf) (st : TState) (h : Heap) :
    Loc F (·.2.next) h.next (oTField F mem t st h) (oTField .plenty mem t st h) := by
  cases t with
  | bytesB64 =>
    unfold oTField
    exact Loc.same fun _ _ => Loc.bind _ (oBytesToBase64_loc F _ _) fun _ _ => Loc.ok le_rfl
  | svcparams => exact oTSvcparams_loc F _ _ _ _
  | _ => exact Loc.same fun _ _ => Loc.ok le_rfl

theorem oTFields_loc (F : Alloc) (mem : List UInt8) (ts : List Rdf) (st : TState) (h : Heap) :
    Loc F (·.2.next) h.next (oTFields F mem ts st h) (oTFields .plenty mem ts st h) := by
  induction ts generalizing st h with
  | nil => exact Loc.ok le_rfl
  | cons t ts ih =>
    unfold oTFields
    split
    · exact Loc.ok le_rfl
    · refine Loc.bind _ (oTField_loc F _ _ _ _) ?_
      rintro ⟨r, h'⟩ -
      cases r with
      | go st => exact Loc.abort_if (ih _ _)
      | bad r u => exact Loc.ok le_rfl

theorem oRdataToUbuf_loc (F : Alloc) (u mem : List UInt8) (rdlen rrtype rrclass : Nat) (h : Heap) :
    Loc F (·.2.next) h.next (oRdataToUbuf F u mem rdlen rrtype rrclass h) (oRdataToUbuf .plenty u mem rdlen rrtype rrclass h) := by
  unfold oRdataToUbuf
  cases recordDescr rrtype with
  | none => exact Loc.abort_if (Loc.same fun _ _ => Loc.same fun _ _ => Loc.same fun _ _ => Loc.ok le_rfl)
  | some d =>
    dsimp only
    split
    · refine Loc.bind _ (oTFields_loc F _ _ _ _) ?_
      rintro ⟨r, h'⟩ -
      rcases r with st | ⟨_ | r, u⟩
      · exact Loc.ok le_rfl
      · exact Loc.ok le_rfl
      · exact Loc.ok le_rfl
    · exact Loc.ok le_rfl

theorem oRdataToStr_loc (F : Alloc) (mem : List UInt8) (rdlen rrtype rrclass : Nat) (h : Heap) :
    Loc F (·.2.next) h.next (oRdataToStr F mem rdlen rrtype rrclass h) (oRdataToStr .plenty mem rdlen rrtype rrclass h) := by
  unfold oRdataToStr
  rw [plenty_ubufNew, ok_bind]
  refine Loc.ubufNew ?_
  refine Loc.bind _ (oRdataToUbuf_loc F _ _ _ _ _ _) ?_
  rintro ⟨t, h'⟩ -
  refine Loc.abort_if ?_
  exact Loc.bind _ (oUbufDetach_loc F _ _) fun _ _ => Loc.bind _ (hUbufDestroy_loc F _ _) fun _ _ => Loc.ok le_rfl

/-! ## The theorems -/

/-- **C115 (only requests during the call matter).** With enough memory, `wdns_parse_message` makes its requests from the moment `h.next` to the
moment `h'.next`.  If none of these is refused, then it gives the same result, whatever else is refused before and after. -/
theorem C115_local_parse (F : Alloc) (mem : List UInt8) (len : Nat) (h : Heap) (r : Except Res Unit) (m : HMsg) (h' : Heap)
    (e : hParseMessage mem len h = ok (r, m, h')) (hq : F.Quiet h.next h'.next) :
    h.next ≤ h'.next ∧ oParseMessage F mem len h = ok (r, m, h') := by
  obtain ⟨h1, h2⟩ := oParseMessage_loc F mem len h _ e
  exact ⟨h1, (h2 hq).trans e⟩

/-- **C115 (only requests during the call matter).** The same for `wdns_deserialize_rrset`. -/
theorem C115_local_deserialize (F : Alloc) (le : Bool) (buf : List UInt8) (sz : Nat) (h : Heap) (r : Except Res Unit) (s : HRRset) (h' : Heap)
    (e : hDeserializeRrset le buf sz h = ok (r, s, h')) (hq : F.Quiet h.next h'.next) :
    h.next ≤ h'.next ∧ oDeserializeRrset F le buf sz h = ok (r, s, h') := by
  obtain ⟨h1, h2⟩ := oDeserializeRrset_loc F le buf sz h _ e
  exact ⟨h1, (h2 hq).trans e⟩

/-- **C115 (only requests during the call matter).** The same for `wdns_str_to_name` and `wdns_str_to_name_case`. -/
theorem C115_local_name (F : Alloc) (s : List UInt8) (downcase : Bool) (h : Heap) (r : Except Res (CName × Nat)) (h' : Heap)
    (e : hStrToNameGen s downcase h = ok (r, h')) (hq : F.Quiet h.next h'.next) :
    h.next ≤ h'.next ∧ oStrToNameGen F s downcase h = ok (r, h') := by
  obtain ⟨h1, h2⟩ := oStrToNameGen_loc F s downcase h _ e
  exact ⟨h1, (h2 hq).trans e⟩

/-- **C115 (only requests during the call matter).** The same for `wdns_str_to_rdata`. -/
theorem C115_local_text (F : Alloc) (s : List UInt8) (ty cls : Nat) (h : Heap) (r : Except Res (List UInt8 × Nat)) (h' : Heap)
    (e : hStrToRdata s ty cls h = ok (r, h')) (hq : F.Quiet h.next h'.next) :
    h.next ≤ h'.next ∧ oStrToRdata F s ty cls h = ok (r, h') := by
  obtain ⟨h1, h2⟩ := oStrToRdata_loc F s ty cls h _ e
  exact ⟨h1, (h2 hq).trans e⟩

/-- **C115 (only requests during the call matter).** The same for `wdns_rdata_to_str`. -/
theorem C115_local_render (F : Alloc) (mem : List UInt8) (rdlen ty cls : Nat) (h : Heap) (t : List UInt8) (b : Nat) (h' : Heap)
    (e : oRdataToStr .plenty mem rdlen ty cls h = ok ((t, b), h')) (hq : F.Quiet h.next h'.next) :
    h.next ≤ h'.next ∧ rdataToStr mem rdlen ty cls = ok t ∧ oRdataToStr F mem rdlen ty cls h = ok ((t, b), h') := by
  obtain ⟨h1, h2⟩ := oRdataToStr_loc F mem rdlen ty cls h _ e
  refine ⟨h1, ?_, (h2 hq).trans e⟩
  rcases C115_render .plenty mem rdlen ty cls h with ⟨⟨n, hn | hn⟩, -⟩ | hr
  · cases hn
  · cases hn
  · cases hx : rdataToStr mem rdlen ty cls with
    | ok t' =>
      rw [hx] at hr
      obtain ⟨b', n, e', -⟩ := hr
      rw [e] at e'
      cases e'
      rfl
    | _ =>
      rw [hx] at hr
      rw [e] at hr
      cases hr

/-- The hypotheses are met by a run in which every request before and after the call is refused: the call for the address record `192.0.2.1`
begins at the moment 5 and ends at the moment 9. -/
def refusesElsewhere : Alloc := ⟨fun n => decide (n < 5 ∨ n > 9), fun n => decide (n < 5 ∨ n > 9)⟩

example : refusesElsewhere.Quiet 5 9 ∧ refusesElsewhere.Refuses := by
  refine ⟨fun n h1 h2 => ?_, 0, .inl rfl⟩
  simp only [refusesElsewhere, decide_eq_false_iff_not]
  omega

example : (match hStrToRdata (ascii "192.0.2.1") 1 1 ⟨5, []⟩, oStrToRdata refusesElsewhere (ascii "192.0.2.1") 1 1 ⟨5, []⟩ with
    | ok (.ok (w, b), h'), ok (.ok (w', b'), h'') => decide (w = [192, 0, 2, 1] ∧ w' = w ∧ b' = b ∧ h'' = h' ∧ h'.next ≤ 9)
    | _, _ => false) = true := by decide +kernel

end Wdns
