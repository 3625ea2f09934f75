import Verif.Model.Oom
import Verif.Props.TextHeap
import Verif.Props.Heap
import Verif.Props.Message

/-!
# Running out of memory (C115)

Property theorems: C115_*.
-/

namespace Wdns
open Outcome

/-- Some request for memory is refused. -/
def Alloc.Refuses (F : Alloc) : Prop := ∃ n, F.fails n = true ∨ F.grows n = true

/-- `y` is what happens with the allocator `F`, `x` what happens with enough memory: the same or, if some request is refused, the
end of the process by an assertion or (only if `b`) undefined behaviour. -/
def Le (F : Alloc) (b : Bool) {α : Type} (y x : Outcome α) : Prop := y = x ∨ (F.Refuses ∧ (y = abort ∨ (b = true ∧ y = ub)))

theorem Le.refl {F : Alloc} {α : Type} (b : Bool) (x : Outcome α) : Le F b x x := Or.inl rfl

theorem Le.abort {F : Alloc} {α : Type} {n : Nat} (hF : F.fails n = true) (b : Bool) (x : Outcome α) : Le F b Outcome.abort x :=
  Or.inr ⟨⟨n, .inl hF⟩, .inl rfl⟩

theorem Le.ub {F : Alloc} {α : Type} {n : Nat} (hF : F.fails n = true) (x : Outcome α) : Le F true Outcome.ub x :=
  Or.inr ⟨⟨n, .inl hF⟩, .inr ⟨rfl, rfl⟩⟩

theorem Le.mono {F : Alloc} {α : Type} {b : Bool} {y x : Outcome α} (h : Le F false y x) : Le F b y x := by
  rcases h with h | ⟨hF, h | ⟨h, _⟩⟩
  · exact .inl h
  · exact .inr ⟨hF, .inl h⟩
  · simp at h

theorem Le.bind {F : Alloc} {α β : Type} {b : Bool} {y x : Outcome α} {f g : α → Outcome β} (h : Le F b y x)
    (hf : ∀ a, x = ok a → Le F b (f a) (g a)) : Le F b (y >>= f) (x >>= g) := by
  rcases h with rfl | ⟨hF, rfl | ⟨hb, rfl⟩⟩
  · cases y with
    | ok a => exact hf a rfl
    | _ => exact Le.refl _ _
  · exact .inr ⟨hF, .inl rfl⟩
  · exact .inr ⟨hF, .inr ⟨hb, rfl⟩⟩

theorem Le.same {F : Alloc} {α β : Type} {b : Bool} (x : Outcome α) {f g : α → Outcome β} (hf : ∀ a, x = ok a → Le F b (f a) (g a)) :
    Le F b (x >>= f) (x >>= g) := Le.bind (Le.refl _ _) hf

theorem le_myMalloc {α : Type} {b : Bool} (F : Alloc) (h : Heap) {f : Nat × Heap → Outcome α} {x : Outcome α}
    (hf : Le F b (f h.malloc) x) : Le F b (h.myMalloc F >>= f) x := by
  unfold Heap.myMalloc
  split
  · exact Le.abort (by assumption) _ _
  · exact hf

theorem le_myRealloc {α : Type} {b : Bool} (F : Alloc) (h : Heap) (p : Ptr) {f g : Nat × Heap → Outcome α}
    (hf : ∀ h', h.free p = ok h' → Le F b (f h'.malloc) (g h'.malloc)) : Le F b (h.myRealloc F p >>= f) (h.realloc p >>= g) := by
  unfold Heap.myRealloc Heap.realloc
  cases hr : h.free p with
  | ok h' => exact le_myMalloc F h' (hf h' hr)
  | _ => exact Le.refl _ _

theorem use_malloc (h : Heap) : h.malloc.2.use (some h.malloc.1) = ok () := by simp [Heap.malloc, Heap.use]

theorem le_cMalloc {α : Type} (F : Alloc) (h : Heap) {f : Ptr → Heap → Outcome α} {x : Outcome α}
    (hn : ∀ h', f none h' = ub) (hf : Le F true (f (some h.malloc.1) h.malloc.2) x) :
    Le F true (f (h.cMalloc F).1 (h.cMalloc F).2) x := by
  unfold Heap.cMalloc
  split
  · rw [hn]
    exact Le.ub (by assumption) _
  · exact hf

theorem le_abort_if {F : Alloc} {α : Type} {b : Bool} {n : Nat} {y x : Outcome α} (h : Le F b y x) :
    Le F b (if F.grows n then Outcome.abort else y) x := by
  split
  · exact Or.inr ⟨⟨n, .inr (by assumption)⟩, .inl rfl⟩
  · exact h

theorem oParseRdata_le (F : Alloc) (mem : List UInt8) (p eop rdata rdlen rrtype rrclass : Nat) (h : Heap) :
    Le F false (oParseRdata F mem p eop rdata rdlen rrtype rrclass h) (hParseRdata mem p eop rdata rdlen rrtype rrclass h) := by
  unfold oParseRdata hParseRdata
  refine le_myMalloc F h (le_myMalloc F _ (le_abort_if ?_))
  dsimp only
  cases parseRdata mem p eop rdata rdlen rrtype rrclass with
  | ok r => exact le_myMalloc F _ (Le.refl _ _)
  | _ => exact Le.refl _ _

theorem oParseMessageRr_le (F : Alloc) (sec : Nat) (mem : List UInt8) (p eop data : Nat) (h : Heap) :
    Le F false (oParseMessageRr F sec mem p eop data h) (hParseMessageRr sec mem p eop data h) := by
  unfold oParseMessageRr hParseMessageRr
  rcases unpackName maxlenName mem p eop data with ⟨nm, len⟩ | e | _ | _ | _
  all_goals try exact Le.refl _ _
  refine le_myMalloc F h ?_
  refine Le.same (skipName mem data eop) ?_
  rintro ⟨src, x⟩ -
  dsimp only
  by_cases h1 : src + 4 > eop ∨ sec ≠ 0 ∧ src + 10 > eop
  · rw [if_pos h1, if_pos h1]
    exact Le.refl _ _
  · rw [if_neg h1, if_neg h1]
    refine Le.same _ fun _ _ => Le.same _ fun _ _ => Le.same _ fun _ _ => Le.same _ fun _ _ => ?_
    by_cases h2 : sec = 0
    · rw [if_pos h2, if_pos h2]
      exact Le.refl _ _
    · rw [if_neg h2, if_neg h2]
      refine Le.same _ fun _ _ => Le.same _ fun _ _ => Le.same _ fun _ _ => Le.same _ fun _ _ => Le.same _ fun _ _ => Le.same _ fun _ _ => ?_
      split
      · exact Le.refl _ _
      · refine Le.bind (oParseRdata_le F _ _ _ _ _ _ _ _) fun _ _ => ?_
        exact Le.refl _ _

theorem oInsertFind_le (F : Alloc) (blk : Ptr) (rr : HRR) (h : Heap) (l : List HRRset) :
    Le F false (oInsertFind F blk rr h l) (hInsertFind blk rr h l) := by
  induction l with
  | nil => exact Le.refl _ _
  | cons s rest ih =>
    unfold oInsertFind hInsertFind
    refine Le.same _ fun _ _ => Le.same _ fun _ _ => Le.same _ fun _ _ => Le.same _ fun _ _ => ?_
    split
    · split
      · exact Le.refl _ _
      · cases rr.val.rdata with
        | none => exact Le.refl _ _
        | some d => exact le_myRealloc F h _ fun _ _ => Le.refl _ _
    · exact Le.bind ih fun _ _ => Le.refl _ _

theorem oInsertRr_le (F : Alloc) (a : HArr) (rr : HRR) (sec : Nat) (h : Heap) :
    Le F false (oInsertRr F a rr sec h) (hInsertRr a rr sec h) := by
  unfold oInsertRr hInsertRr
  split
  · exact Le.refl _ _
  · refine le_myRealloc F h _ fun h' _ => le_myMalloc F _ ?_
    dsimp only
    refine Le.same _ fun _ _ => Le.same _ fun newRr _ => ?_
    by_cases hs : sec = 0
    · have hn : ¬ sec ≠ 0 := fun hh => hh hs
      simp only [if_pos hs, if_neg hn, ok_bind]
      split
      · exact Le.refl _ _
      · refine le_myRealloc F _ _ fun h'' _ => ?_
        exact Le.refl _ _
    · have hn : sec ≠ 0 := hs
      simp only [if_neg hs, if_pos hn]
      refine Le.same _ fun _ _ => le_myMalloc F _ ?_
      simp only [ok_bind]
      refine Le.bind (oInsertFind_le F _ _ _ _) fun found _ => ?_
      rcases found with _ | ⟨rs, h''⟩
      · dsimp only
        split
        · exact Le.refl _ _
        · refine le_myRealloc F _ _ fun h'' _ => ?_
          refine le_myMalloc F _ ?_
          exact Le.refl _ _
      · exact Le.refl _ _

theorem oParseSection_le (F : Alloc) (sec : Nat) (mem : List UInt8) (len : Nat) (n : Nat) (st : HSecState) (h : Heap) :
    Le F false (oParseSection F sec mem len n st h) (hParseSection sec mem len n st h) := by
  induction n generalizing st h with
  | zero => exact Le.refl _ _
  | succ n ih =>
    unfold oParseSection hParseSection
    split
    · exact Le.refl _ _
    · refine Le.bind (oParseMessageRr_le F _ _ _ _ _ _) ?_
      rintro ⟨e | ⟨rr, rrlen⟩, h'⟩ -
      · exact Le.refl _ _
      · dsimp only
        split
        · exact Le.same _ fun _ _ => ih _ _
        · exact Le.bind (oInsertRr_le F _ _ _ _) fun _ _ => ih _ _

theorem oParseSections_le (F : Alloc) (mem : List UInt8) (len : Nat) (l : List (Nat × Nat)) (p : Nat) (hdr : Hdr) (o : Ptr)
    (done : List HArr) (h : Heap) :
    Le F false (oParseSections F mem len l p hdr o done h) (hParseSections mem len l p hdr o done h) := by
  induction l generalizing p hdr o done h with
  | nil => exact Le.refl _ _
  | cons x rest ih =>
    unfold oParseSections hParseSections
    refine Le.bind (oParseSection_le F _ _ _ _ _ _) ?_
    rintro ⟨e | _ | _, st, h'⟩ -
    · exact Le.refl _ _
    · exact ih _ _ _ _ _
    · exact Le.refl _ _

theorem oParseMessage_le (F : Alloc) (mem : List UInt8) (len : Nat) (h : Heap) :
    Le F false (oParseMessage F mem len h) (hParseMessage mem len h) := by
  unfold oParseMessage hParseMessage
  split
  · exact Le.refl _ _
  · refine Le.same _ fun _ _ => ?_
    exact Le.bind (oParseSections_le F _ _ _ _ _ _ _ _) fun _ _ => Le.refl _ _

theorem le_copyBytes {F : Alloc} {b : Bool} (s : HRRset) (buf : List UInt8) (sz off n : Nat) (h : Heap)
    {k k' : List UInt8 → Outcome (Except Res Unit × HRRset × Heap)} (hk : ∀ x, Le F b (k x) (k' x)) :
    Le F b (hCopyBytes s buf sz off n h k) (hCopyBytes s buf sz off n h k') := by
  unfold hCopyBytes
  split
  · exact Le.refl _ _
  · exact Le.same _ fun x _ => hk x

theorem oDeserializeRdatas_le (F : Alloc) (le : Bool) (buf : List UInt8) (sz : Nat) (s : HRRset) (n off : Nat) (acc : List CRdata)
    (accp : List Ptr) (h : Heap) :
    Le F false (oDeserializeRdatas F le buf sz s n off acc accp h) (hDeserializeRdatas le buf sz s n off acc accp h) := by
  induction n generalizing off acc accp h with
  | zero => exact Le.refl _ _
  | succ n ih =>
    unfold oDeserializeRdatas hDeserializeRdatas
    refine le_copyBytes _ _ _ _ _ _ fun x => ?_
    refine Le.same _ fun _ _ => le_myMalloc F _ ?_
    exact le_copyBytes _ _ _ _ _ _ fun y => ih _ _ _ _

theorem oDeserializeRrset_le (F : Alloc) (le : Bool) (buf : List UInt8) (sz : Nat) (h : Heap) :
    Le F false (oDeserializeRrset F le buf sz h) (hDeserializeRrset le buf sz h) := by
  unfold oDeserializeRrset hDeserializeRrset
  refine le_copyBytes _ _ _ _ _ _ fun x => le_myMalloc F _ ?_
  refine le_copyBytes _ _ _ _ _ _ fun x => le_copyBytes _ _ _ _ _ _ fun x => le_copyBytes _ _ _ _ _ _ fun x =>
    le_copyBytes _ _ _ _ _ _ fun x => le_copyBytes _ _ _ _ _ _ fun x => le_myMalloc F _ ?_
  exact oDeserializeRdatas_le F _ _ _ _ _ _ _ _ _

theorem oStrToNameGen_le (F : Alloc) (str : List UInt8) (d : Bool) (h : Heap) :
    Le F false (oStrToNameGen F str d h) (hStrToNameGen str d h) := by
  unfold oStrToNameGen hStrToNameGen
  split
  · exact le_myMalloc F _ (Le.refl _ _)
  · refine le_myMalloc F _ ?_
    exact Le.refl _ _

/-! ## Reading rdata -/

theorem oBase64_le (F : Alloc) (s : List UInt8) (h : Heap) : Le F true (oBase64 F s h) (hBase64 s h) := by
  unfold oBase64 hBase64
  refine le_cMalloc F h (f := fun b h => h.use b >>= fun _ => base64StrToBytes s >>= fun r => h.use b >>= fun _ =>
    h.free b >>= fun h => ok (r, h)) (fun _ => rfl) ?_
  dsimp only
  rw [use_malloc]
  exact Le.refl _ _

theorem oSvcEchTok_le (F : Alloc) (c u : List UInt8) (h : Heap) : Le F true (oSvcEchTok F c u h) (hSvcEchTok c u h) := by
  unfold oSvcEchTok hSvcEchTok
  rcases (strtok (fun x => decide (x = 32)) c []).head? with _ | tok
  · exact Le.refl _ _
  · dsimp only
    split
    · exact Le.refl _ _
    · exact Le.bind (oBase64_le F _ _) fun _ _ => Le.refl _ _

theorem oStrToSvcparam_le (F : Alloc) (u : List UInt8) (key : Nat) (v : Option (List UInt8)) (h : Heap) :
    Le F true (oStrToSvcparam F u key v h) (hStrToSvcparam u key v h) := by
  unfold oStrToSvcparam hStrToSvcparam
  split
  · cases v with
    | none => exact Le.refl _ _
    | some v => exact Le.bind (oSvcEchTok_le F _ _ _) fun _ _ => Le.refl _ _
  · exact Le.refl _ _

theorem oSvcparams_le (F : Alloc) (n : Nat) (s u : List UInt8) (h : Heap) :
    Le F true (oSvcparams F n s u h) (hSvcparams n s u h) := by
  induction n generalizing s u h with
  | zero => exact Le.refl _ _
  | succ n ih =>
    unfold oSvcparams hSvcparams
    rcases s with _ | ⟨c, cs⟩
    · exact Le.refl _ _
    · dsimp only
      split
      · exact ih _ _ _
      · generalize (c :: cs).takeWhile (fun c => decide (c ≠ 61 ∧ c ≠ 32)) = key
        generalize (c :: cs).drop key.length = val
        unfold Heap.cMalloc
        split
        · exact Le.ub (by assumption) _
        · dsimp only
          refine Le.same _ fun _ _ => Le.same _ fun h2 _ => ?_
          split
          · exact Le.refl _ _
          · split
            · split
              · exact Le.refl _ _
              · refine Le.bind (oStrToSvcparam_le F _ _ _ _) fun _ _ => ?_
                split
                · exact Le.refl _ _
                · exact ih _ _ _
            · split
              · exact Le.refl _ _
              · split
                · exact Le.ub (by assumption) _
                · dsimp only
                  rw [use_malloc]
                  refine Le.bind (oStrToSvcparam_le F _ _ _ _) fun _ _ => ?_
                  refine Le.same _ fun _ _ => Le.same _ fun _ _ => ?_
                  split
                  · exact Le.refl _ _
                  · exact ih _ _ _

theorem oU16Add_le (F : Alloc) (v n cap : Nat) (h : Heap) : Le F true (oU16Add F v n cap h) (hU16Add v n cap h) := by
  unfold oU16Add hU16Add
  split
  · exact le_myRealloc F _ _ fun _ _ => Le.refl _ _
  · exact Le.refl _ _

theorem oTypes_le (F : Alloc) (b n : Nat) (s : Option (List UInt8)) (v k cap : Nat) (h : Heap) :
    Le F true (oTypes F b n s v k cap h) (hTypes b n s v k cap h) := by
  induction n generalizing s v k cap h with
  | zero => cases s <;> exact Le.refl _ _
  | succ n ih =>
    cases s with
    | none => exact Le.refl _ _
    | some s =>
      unfold oTypes hTypes
      rcases s with _ | ⟨c, cs⟩
      · exact Le.refl _ _
      · dsimp only
        split
        · exact ih _ _ _ _ _
        · unfold Heap.cMalloc
          split
          · exact Le.ub (by assumption) _
          · dsimp only
            rw [use_malloc]
            simp only [ok_bind]
            refine Le.same _ fun t _ => ?_
            split
            · exact Le.refl _ _
            · refine Le.same _ fun _ _ => Le.bind (oU16Add_le F _ _ _ _) fun _ _ => ?_
              exact Le.bind (ih _ _ _ _ _) fun _ _ => Le.refl _ _

theorem oBitmap_le (F : Alloc) (s u : List UInt8) (h : Heap) : Le F true (oBitmap F s u h) (hBitmap s u h) := by
  unfold oBitmap hBitmap
  refine le_myMalloc F _ (le_myMalloc F _ ?_)
  exact Le.bind (oTypes_le F _ _ _ _ _ _ _) fun _ _ => Le.refl _ _

theorem oPrefix_le (F : Alloc) (s u : List UInt8) (h : Heap) : Le F true (oPrefix F s u h) (hPrefix s u h) := by
  unfold oPrefix hPrefix
  split
  · rcases scanfU 8 s with _ | _ | pl
    · exact Le.refl _ _
    · exact Le.refl _ _
    · dsimp only
      split
      · exact Le.refl _ _
      · unfold oPrefixAddr hPrefixAddr
        split
        · exact Le.refl _ _
        · by_cases hF : F.fails h.next = true
          · refine Or.inr ⟨⟨_, .inl hF⟩, .inr ⟨rfl, ?_⟩⟩
            simp only [Heap.cMalloc, if_pos hF]
            rfl
          · simp only [Heap.cMalloc, if_neg hF]
            exact Le.refl _ _
  · exact Le.refl _ _

theorem oField_le (F : Alloc) (t : Rdf) (s u : List UInt8) (h : Heap) : Le F true (oField F t s u h) (hField t s u h) := by
  have hname : Le F true (oField F .name s u h) (hField .name s u h) := by
    unfold oField hField
    dsimp only
    unfold Heap.cMalloc
    by_cases h1 : F.fails h.next = true
    · rw [if_pos h1]
      exact Le.ub (by assumption) _
    · rw [if_neg h1]
      dsimp only
      by_cases h2 : F.fails h.malloc.2.next = true
      · rw [if_pos h2]
        refine Or.inr ⟨⟨_, .inl h2⟩, .inr ⟨rfl, ?_⟩⟩
        have : (⟨h.malloc.2.next + 1, h.malloc.2.live⟩ : Heap).use (some h.malloc.1) = ok () := by simp [Heap.malloc, Heap.use]
        dsimp only
        rw [this]
        rfl
      · rw [if_neg h2]
        dsimp only
        refine Le.same _ fun _ _ => ?_
        rw [use_malloc]
        simp only [ok_bind]
        exact Le.bind (oStrToNameGen_le F _ _ _).mono fun _ _ => Le.refl _ _
  cases t with
  | name => exact hname
  | uname => exact hname
  | bytesB64 =>
    unfold oField hField
    exact Le.bind (oBase64_le F _ _) fun _ _ => Le.refl _ _
  | ipv6prefix => exact oPrefix_le F _ _ _
  | hash =>
    unfold oField hField
    dsimp only
    split
    · exact Le.refl _ _
    · unfold Heap.cMalloc
      split
      · exact Le.ub (by assumption) _
      · dsimp only
        rw [use_malloc]
        exact Le.refl _ _
  | ipv4 =>
    unfold oField hField
    dsimp only
    unfold Heap.cMalloc
    split
    · exact Le.ub (by assumption) _
    · exact Le.refl _ _
  | ipv6 =>
    unfold oField hField
    dsimp only
    unfold Heap.cMalloc
    split
    · exact Le.ub (by assumption) _
    · exact Le.refl _ _
  | rrtype =>
    unfold oField hField
    dsimp only
    unfold Heap.cMalloc
    split
    · exact Le.ub (by assumption) _
    · exact Le.refl _ _
  | svcparams => exact oSvcparams_le F _ _ _ _
  | typeBitmap => exact oBitmap_le F _ _ _
  | _ => exact Le.refl _ _

theorem oFields_le (F : Alloc) (ts : List Rdf) (s : Option (List UInt8)) (u : List UInt8) (h : Heap) :
    Le F true (oFields F ts s u h) (hFields ts s u h) := by
  induction ts generalizing s u h with
  | nil => exact Le.refl _ _
  | cons t ts ih =>
    cases s with
    | none => exact Le.refl _ _
    | some s =>
      unfold oFields hFields
      split
      · exact Le.refl _ _
      · refine Le.bind (oField_le F _ _ _ _) fun p _ => ?_
        obtain ⟨r, h'⟩ := p
        cases r with
        | go s u => exact le_abort_if (ih _ _ _)
        | bad r u => exact Le.refl _ _

theorem oStrToRdataUbuf_le (F : Alloc) (u s : List UInt8) (rrtype rrclass : Nat) (h : Heap) :
    Le F true (oStrToRdataUbuf F u s rrtype rrclass h) (hStrToRdataUbuf u s rrtype rrclass h) := by
  unfold oStrToRdataUbuf hStrToRdataUbuf
  refine Le.bind (b := true) ?_ fun _ _ => Le.refl _ _
  rcases recordDescr rrtype with _ | d
  · exact Le.refl _ _
  · dsimp only
    split
    · exact oFields_le F _ _ _ _
    · exact Le.refl _ _

theorem le_ubufNew {α : Type} {b : Bool} (F : Alloc) (h : Heap) {f : HUbuf × Heap → Outcome α} {x : Outcome α}
    (hf : Le F b (f (hUbufNew h)) x) : Le F b (oUbufNew F h >>= f) x := by
  unfold oUbufNew Heap.myMalloc
  split
  · exact Le.abort (by assumption) _ _
  · simp only [ok_bind]
    split
    · exact Le.abort (by assumption) _ _
    · exact hf

theorem oUbufDetach_le {b : Bool} (F : Alloc) (u : HUbuf) (h : Heap) : Le F b (oUbufDetach F u h) (hUbufDetach u h) := by
  unfold oUbufDetach hUbufDetach
  exact Le.same _ fun _ _ => le_myMalloc F _ (Le.refl _ _)

theorem oStrToRdata_le (F : Alloc) (s : List UInt8) (rrtype rrclass : Nat) (h : Heap) :
    Le F true (oStrToRdata F s rrtype rrclass h) (hStrToRdata s rrtype rrclass h) := by
  unfold oStrToRdata hStrToRdata
  refine le_ubufNew F _ ?_
  refine Le.bind (oStrToRdataUbuf_le F _ _ _ _ _) ?_
  rintro ⟨⟨r, w⟩, h'⟩ -
  dsimp only
  split
  · exact Le.bind (oUbufDetach_le F _ _) fun _ _ => Le.refl _ _
  · exact Le.refl _ _

/-! ## Writing rdata -/

/-- As `Le`, for a function whose other model has no heap: the live blocks are the same afterwards. -/
def LeH (F : Alloc) (b : Bool) {α : Type} (h : Heap) (y : Outcome (α × Heap)) (x : Outcome α) : Prop :=
  (F.Refuses ∧ y = abort) ∨ ((b = true ∧ F.Refuses) ∧ y = ub) ∨ y = (x >>= fun a => ok (a, h)) ∨ ∃ a h', x = ok a ∧ y = ok (a, h') ∧ h'.live = h.live ∧ h.next ≤ h'.next

theorem LeH.bind {F : Alloc} {b : Bool} {α β : Type} {h : Heap} {y : Outcome (α × Heap)} {x : Outcome α} {f : α × Heap → Outcome (β × Heap)}
    {g : α → Outcome β} (hy : LeH F b h y x) (hf : ∀ a h', h'.live = h.live → h.next ≤ h'.next → LeH F b h' (f (a, h')) (g a)) :
    LeH F b h (y >>= f) (x >>= g) := by
  have one : ∀ a h', h'.live = h.live → h.next ≤ h'.next → LeH F b h (f (a, h')) (g a) := by
    intro a h' hl hn
    rcases hf a h' hl hn with h1 | h1 | h1 | ⟨c, h2, h3, h4, h5, h6⟩
    · exact .inl h1
    · exact .inr (.inl h1)
    · rw [h1]
      cases hg : g a with
      | ok c => exact .inr (.inr (.inr ⟨c, h', rfl, rfl, hl, hn⟩))
      | _ => exact .inr (.inr (.inl rfl))
    · exact .inr (.inr (.inr ⟨c, h2, h3, h4, h5.trans hl, le_trans hn h6⟩))
  rcases hy with ⟨hF, rfl⟩ | ⟨hF, rfl⟩ | rfl | ⟨a, h', rfl, rfl, hl, hn⟩
  · exact .inl ⟨hF, rfl⟩
  · exact .inr (.inl ⟨hF, rfl⟩)
  · cases x with
    | ok a => exact one a h rfl (le_refl _)
    | _ => exact .inr (.inr (.inl rfl))
  · exact one a h' hl hn

theorem LeH.pure {F : Alloc} {b : Bool} {α : Type} (h : Heap) (x : Outcome α) : LeH F b h (x >>= fun a => ok (a, h)) x := .inr (.inr (.inl rfl))

theorem LeH.lift {F : Alloc} {b : Bool} {α β : Type} {h : Heap} (x : Outcome α) {f : α → Outcome (β × Heap)} {g : α → Outcome β}
    (hf : ∀ a, LeH F b h (f a) (g a)) : LeH F b h (x >>= f) (x >>= g) := by
  cases x with
  | ok a => exact hf a
  | _ => exact .inr (.inr (.inl rfl))

theorem LeH.ok {F : Alloc} {b : Bool} {α : Type} (h : Heap) (a : α) : LeH F b h (Outcome.ok (a, h)) (Outcome.ok a) := .inr (.inr (.inl rfl))

theorem LeH.abort_if {F : Alloc} {b : Bool} {α : Type} {h : Heap} {n : Nat} {y : Outcome (α × Heap)} {x : Outcome α} (hy : LeH F b h y x) :
    LeH F b h (if F.grows n then Outcome.abort else y) x := by
  split
  · exact .inl ⟨⟨n, .inr (by assumption)⟩, rfl⟩
  · exact hy

theorem oBytesToBase64_le (F : Alloc) (bs : List UInt8) (h : Heap) : LeH F true h (oBytesToBase64 F bs h) (bytesToBase64 bs) := by
  unfold oBytesToBase64
  by_cases hF : F.fails h.next = true
  · simp only [Heap.cMalloc, if_pos hF]
    by_cases hb : bs = []
    · simp only [if_pos hb, Heap.free, ok_bind]
      cases bytesToBase64 bs with
      | ok t => exact .inr (.inr (.inr ⟨t, _, rfl, rfl, rfl, Nat.le_succ _⟩))
      | _ => exact .inr (.inr (.inl rfl))
    · simp only [if_neg hb]
      exact .inr (.inl ⟨⟨rfl, ⟨_, .inl hF⟩⟩, rfl⟩)
  · simp only [Heap.cMalloc, if_neg hF, use_malloc, ok_bind]
    have hx : LeH F true h (bytesToBase64 bs >>= fun t => h.malloc.2.free (some h.malloc.1) >>= fun h' => Outcome.ok (t, h')) (bytesToBase64 bs) := by
      cases bytesToBase64 bs with
      | ok t =>
        refine .inr (.inr (.inr ⟨t, ⟨h.next + 1, h.live⟩, rfl, ?_, rfl, Nat.le_succ _⟩))
        simp [Heap.malloc, Heap.free]
      | _ => exact .inr (.inr (.inl rfl))
    split <;> exact hx

theorem oSvcparamToStr_le (F : Alloc) (key : Nat) (v u : List UInt8) (h : Heap) :
    LeH F true h (oSvcparamToStr F key v u h) (svcparamToStr key v u) := by
  unfold oSvcparamToStr
  split
  · rename_i hk
    subst hk
    have : svcparamToStr 5 v u = (bytesToBase64 v >>= fun t => Outcome.ok (u ++ t ++ [32], Res.success)) := rfl
    rw [this]
    exact LeH.bind (oBytesToBase64_le F v h) fun a h' _ _ => LeH.ok _ _
  · exact LeH.pure _ _

theorem LeH.need {F : Alloc} {b : Bool} {h : Heap} (st : TState) (n : Nat) {y : Outcome (TRes × Heap)} {x : Outcome TRes} (hy : LeH F b h y x) :
    LeH F b h (oNeed st n h y) (need st n x) := by
  unfold oNeed Wdns.need
  split
  · exact LeH.ok _ _
  · exact hy

theorem oTSvcparams_le (F : Alloc) (mem : List UInt8) (n : Nat) (st : TState) (h : Heap) :
    LeH F true h (oTSvcparams F mem n st h) (tSvcparams mem n st) := by
  induction n generalizing st h with
  | zero => exact .inr (.inr (.inl rfl))
  | succ n ih =>
    unfold oTSvcparams tSvcparams
    split
    · refine LeH.need _ _ (LeH.lift _ fun k0 => LeH.lift _ fun k1 => ?_)
      dsimp only
      split
      · exact LeH.ok _ _
      · refine LeH.need _ _ (LeH.lift _ fun l0 => LeH.lift _ fun l1 => LeH.need _ _ (LeH.lift _ fun v => ?_))
        refine LeH.bind (oSvcparamToStr_le F _ _ _ _) ?_
        rintro ⟨u, r⟩ h' - -
        dsimp only
        split
        · exact LeH.ok _ _
        · exact ih _ _
    · exact LeH.ok _ _

theorem oTField_le (F : Alloc) (mem : List UInt8) (t : Rdf) (st : TState) (h : Heap) :
    LeH F true h (oTField F mem t st h) (tField mem t st) := by
  cases t with
  | bytesB64 =>
    unfold oTField tField
    exact LeH.lift _ fun bs => LeH.bind (oBytesToBase64_le F bs h) fun a h' _ _ => LeH.ok _ _
  | svcparams => exact oTSvcparams_le F mem _ st h
  | _ => exact LeH.pure _ _

theorem oTFields_gen {F : Alloc} {b : Bool} (mem : List UInt8) (ts : List Rdf)
    (hf : ∀ t ∈ ts, ∀ st h, LeH F b h (oTField F mem t st h) (tField mem t st)) (st : TState) (h : Heap) :
    LeH F b h (oTFields F mem ts st h) (tFields mem ts st) := by
  induction ts generalizing st h with
  | nil => exact LeH.ok _ _
  | cons t ts ih =>
    unfold oTFields tFields
    split
    · exact LeH.ok _ _
    · refine LeH.bind (hf t (List.mem_cons_self ..) st h) ?_
      rintro (st' | ⟨r, u⟩) h' - -
      · exact LeH.abort_if (ih (fun t' ht' => hf t' (List.mem_cons_of_mem _ ht')) _ _)
      · exact LeH.ok _ _

theorem oRdataToUbuf_gen {F : Alloc} {b : Bool} (u mem : List UInt8) (rdlen rrtype rrclass : Nat)
    (hf : ∀ d, recordDescr rrtype = some d → d.applies rrclass = true → ∀ t ∈ d.types, ∀ st h,
      LeH F b h (oTField F mem t st h) (tField mem t st)) (h : Heap) :
    LeH F b h (oRdataToUbuf F u mem rdlen rrtype rrclass h) (rdataToUbuf u mem rdlen rrtype rrclass) := by
  unfold oRdataToUbuf rdataToUbuf
  rcases hd : recordDescr rrtype with _ | d
  · refine LeH.abort_if (LeH.lift _ fun t => LeH.lift _ fun bs => LeH.pure _ _)
  · dsimp only
    split
    · refine LeH.bind (oTFields_gen _ _ (hf d hd (by assumption)) _ _) ?_
      rintro (st' | ⟨_ | r, u⟩) h' - - <;> exact LeH.ok _ _
    · exact LeH.ok _ _

theorem oRdataToStr_gen (F : Alloc) (c : Bool) (mem : List UInt8) (rdlen rrtype rrclass : Nat)
    (hf : ∀ d, recordDescr rrtype = some d → d.applies rrclass = true → ∀ t ∈ d.types, ∀ st h,
      LeH F c h (oTField F mem t st h) (tField mem t st)) (h : Heap) :
    (F.Refuses ∧ (oRdataToStr F mem rdlen rrtype rrclass h = abort ∨ (c = true ∧ oRdataToStr F mem rdlen rrtype rrclass h = ub))) ∨
    match rdataToStr mem rdlen rrtype rrclass with
    | ok t => ∃ b n, oRdataToStr F mem rdlen rrtype rrclass h = ok ((t, b), ⟨n, b :: h.live⟩) ∧ h.next ≤ b
    | err e => oRdataToStr F mem rdlen rrtype rrclass h = err e
    | ub => oRdataToStr F mem rdlen rrtype rrclass h = ub
    | hang => oRdataToStr F mem rdlen rrtype rrclass h = hang
    | abort => oRdataToStr F mem rdlen rrtype rrclass h = abort := by
  unfold oRdataToStr oUbufNew Heap.myMalloc rdataToStr
  by_cases h1 : F.fails h.next = true
  · rw [if_pos h1]
    exact .inl ⟨⟨_, .inl h1⟩, .inl rfl⟩
  rw [if_neg h1]
  simp only [ok_bind]
  by_cases h2 : F.fails h.malloc.2.next = true
  · rw [if_pos h2]
    exact .inl ⟨⟨_, .inl h2⟩, .inl rfl⟩
  rw [if_neg h2]
  simp only [ok_bind]
  have after : ∀ (t : List UInt8) (h' : Heap), h'.live = (hUbufNew h).2.live →
      (F.Refuses ∧ ((if F.grows h'.next then Outcome.abort else do
        let (b, u, h) ← oUbufDetach F ⟨h.malloc.1, h.malloc.2.malloc.1⟩ h'
        let h ← hUbufDestroy u h
        ok ((cstrOf t, b), h)) = Outcome.abort)) ∨
      ∃ b n, (if F.grows h'.next then Outcome.abort else do
        let (b, u, h) ← oUbufDetach F ⟨h.malloc.1, h.malloc.2.malloc.1⟩ h'
        let h ← hUbufDestroy u h
        ok ((cstrOf t, b), h)) = ok ((cstrOf t, b), ⟨n, b :: h.live⟩) ∧ h.next ≤ b := by
    intro t h' hl
    by_cases h3 : F.grows h'.next = true
    · rw [if_pos h3]
      exact .inl ⟨⟨_, .inr h3⟩, rfl⟩
    rw [if_neg h3]
    unfold oUbufDetach Heap.myMalloc
    have hl' : h'.live = (h.next + 1) :: h.next :: h.live := hl
    have hu : h'.use (some h.malloc.1) = ok () := by unfold Heap.use; rw [hl']; simp [Heap.malloc]
    rw [hu]
    simp only [ok_bind]
    by_cases h4 : F.fails h'.next = true
    · rw [if_pos h4]
      exact .inl ⟨⟨_, .inl h4⟩, rfl⟩
    rw [if_neg h4]
    right
    have hd := detach_frame (cstrOf t) (u := ⟨h.next, h.next + 1⟩) (L := h.live) (h := h') hl' (by simp)
    unfold hUbufDetach at hd
    have hu' : h'.use (some h.next) = ok () := hu
    simp only [hu', ok_bind] at hd
    exact ⟨_, _, hd, by simp⟩
  rcases oRdataToUbuf_gen (F := F) [] mem rdlen rrtype rrclass hf h.malloc.2.malloc.2 with ⟨hF, e⟩ | ⟨⟨hc, hF⟩, e⟩ | e | ⟨t, h', e1, e2, hl, hn⟩
  · rw [e]
    exact .inl ⟨hF, .inl rfl⟩
  · rw [e]
    exact .inl ⟨hF, .inr ⟨hc, rfl⟩⟩
  · rw [e]
    cases rdataToUbuf [] mem rdlen rrtype rrclass with
    | ok t =>
      rcases after t _ rfl with ⟨hF, ha⟩ | ha
      · exact .inl ⟨hF, .inl ha⟩
      · exact .inr ha
    | _ => exact .inr rfl
  · rw [e1, e2]
    rcases after t h' hl with ⟨hF, ha⟩ | ha
    · exact .inl ⟨hF, .inl ha⟩
    · exact .inr ha

/-! ## The theorems -/

/-- **C115 (parsing).**  Whatever requests for memory are refused: if `wdns_parse_message` returns, it returns what it would return with enough
memory, and after success exactly the blocks of the message are new, after an error none.  It does not do anything undefined
or loop because of a refusal; what can happen is that an assertion ends the process, and only if a request is refused (or
an assertion fails anyway). -/
theorem C115_parse (F : Alloc) (mem : List UInt8) (len : Nat) (h : Heap) (hw : h.Wf) :
    (∀ m h', oParseMessage F mem len h = ok (.ok (), m, h') →
      parseMessage mem len = ok m.erase ∧ h'.live.Perm (m.blocks ++ h.live)) ∧
    (∀ e m h', oParseMessage F mem len h = ok (.error e, m, h') → parseMessage mem len = err e ∧ h'.live.Perm h.live) ∧
    (oParseMessage F mem len h = ub → parseMessage mem len = ub) ∧
    (oParseMessage F mem len h = hang → parseMessage mem len = hang) ∧
    (oParseMessage F mem len h = abort → F.Refuses ∨ parseMessage mem len = abort) := by
  obtain ⟨s1, s2, s3, s4, s5⟩ := C36_same_result mem len h hw
  have key : ∀ r, oParseMessage F mem len h = r → r ≠ abort → hParseMessage mem len h = r := by
    intro r hr hne
    rcases oParseMessage_le F mem len h with e | ⟨_, e | ⟨e, _⟩⟩
    · rw [← e, hr]
    · exact absurd (hr.symm.trans e) hne
    · simp at e
  refine ⟨?_, ?_, ?_, ?_, ?_⟩
  · intro m h' hr
    have hk := key _ hr (by simp)
    refine ⟨?_, (C36_success_owns_exactly mem len h h' hw m hk).1⟩
    cases hp : parseMessage mem len with
    | ok m0 =>
      obtain ⟨m', h'', e1, e2⟩ := s1 m0 hp
      rw [hk] at e1
      cases e1
      rw [e2]
    | err e =>
      obtain ⟨m', h'', e1⟩ := s2 e hp
      rw [hk] at e1
      cases e1
    | ub => exact absurd (hParseMessage_sim (mem := mem) (len := len) hw.owns) (by rw [hp, hk]; simp [SimT])
    | hang => exact absurd (hParseMessage_sim (mem := mem) (len := len) hw.owns) (by rw [hp, hk]; simp [SimT])
    | abort => exact absurd (hParseMessage_sim (mem := mem) (len := len) hw.owns) (by rw [hp, hk]; simp [SimT])
  · intro e m h' hr
    have hk := key _ hr (by simp)
    refine ⟨?_, (C36_failure_frees_everything mem len h h' hw e m hk).1⟩
    cases hp : parseMessage mem len with
    | ok m0 =>
      obtain ⟨m', h'', e1, e2⟩ := s1 m0 hp
      rw [hk] at e1
      cases e1
    | err e =>
      obtain ⟨m', h'', e1⟩ := s2 e hp
      rw [hk] at e1
      cases e1
      rfl
    | ub => exact absurd (hParseMessage_sim (mem := mem) (len := len) hw.owns) (by rw [hp, hk]; simp [SimT])
    | hang => exact absurd (hParseMessage_sim (mem := mem) (len := len) hw.owns) (by rw [hp, hk]; simp [SimT])
    | abort => exact absurd (hParseMessage_sim (mem := mem) (len := len) hw.owns) (by rw [hp, hk]; simp [SimT])
  · exact fun hr => s3 (key _ hr (by simp))
  · exact fun hr => s4 (key _ hr (by simp))
  · intro hr
    rcases oParseMessage_le F mem len h with e | ⟨hF, _⟩
    · exact .inr (s5 (e.symm.trans hr))
    · exact .inl hF

/-- **C115 (names).** The same for `wdns_str_to_name` and `wdns_str_to_name_case`. -/
theorem C115_name (F : Alloc) (s : List UInt8) (downcase : Bool) (h : Heap) :
    (F.Refuses ∧ oStrToNameGen F s downcase h = abort) ∨
    match (if downcase then strToName s else strToNameCase s) with
    | ok n => ∃ b, oStrToNameGen F s downcase h = ok (.ok (n, b), ⟨b + 1, b :: h.live⟩) ∧ h.next ≤ b
    | err e => ∃ n, oStrToNameGen F s downcase h = ok (.error e, ⟨n, h.live⟩)
    | ub => oStrToNameGen F s downcase h = ub
    | hang => oStrToNameGen F s downcase h = hang
    | abort => oStrToNameGen F s downcase h = abort := by
  rcases oStrToNameGen_le F s downcase h with e | ⟨hF, e | ⟨e, _⟩⟩
  · rw [e]
    exact .inr (C76_str_to_name s downcase h)
  · exact .inl ⟨hF, e⟩
  · simp at e

/-- **C115 (deserializing).** The same for `wdns_deserialize_rrset`. -/
theorem C115_deserialize (F : Alloc) (le : Bool) (buf : List UInt8) (sz : Nat) (h : Heap) (hw : h.Wf) :
    (F.Refuses ∧ oDeserializeRrset F le buf sz h = abort) ∨
    match deserializeRrset le buf sz with
    | ok r => ∃ s h', oDeserializeRrset F le buf sz h = ok (.ok (), s, h') ∧ s.val = r ∧ h'.live.Perm (s.blocks ++ h.live)
    | err e => ∃ s h', oDeserializeRrset F le buf sz h = ok (.error e, s, h') ∧ h'.live.Perm h.live
    | ub => oDeserializeRrset F le buf sz h = ub
    | hang => oDeserializeRrset F le buf sz h = hang
    | abort => oDeserializeRrset F le buf sz h = abort := by
  rcases oDeserializeRrset_le F le buf sz h with e | ⟨hF, e | ⟨e, _⟩⟩
  · rw [e]
    right
    have hs := hDeserializeRrset_sim (le := le) (buf := buf) (sz := sz) hw.owns
    obtain ⟨s1, s2, _⟩ := C68_deserialize_same_result le buf sz h hw
    cases hd : deserializeRrset le buf sz with
    | ok r =>
      obtain ⟨s, h', e1, e2⟩ := s1 r hd
      exact ⟨s, h', e1, e2, (C68_deserialize_success le buf sz h h' hw s e1).1⟩
    | err x =>
      obtain ⟨s, h', e1⟩ := s2 x hd
      exact ⟨s, h', e1, (C68_deserialize_failure le buf sz h h' hw x s e1).1⟩
    | _ =>
      rw [hd] at hs
      generalize hDeserializeRrset le buf sz h = B at hs
      rcases B with ⟨_ | _, m', h'⟩ | _ | _ | _ | _ <;> simp_all [SimD]
  · exact .inl ⟨hF, e⟩
  · simp at e

/-- **C115 (reading rdata).**  If `wdns_str_to_rdata` returns, then what it would return with enough memory, with one new block or none.
Otherwise it ends as it would with enough memory, or a request has been refused and either an assertion ends the process or
(see `C115_text_violated`) the behaviour is undefined. -/
theorem C115_text (F : Alloc) (s : List UInt8) (ty cls : Nat) (h : Heap) :
    (F.Refuses ∧ (oStrToRdata F s ty cls h = abort ∨ oStrToRdata F s ty cls h = ub)) ∨
    match strToRdata s ty cls with
    | ok w => ∃ b n, oStrToRdata F s ty cls h = ok (.ok (w, b), ⟨n, b :: h.live⟩) ∧ h.next ≤ b
    | err e => ∃ n, oStrToRdata F s ty cls h = ok (.error e, ⟨n, h.live⟩)
    | ub => oStrToRdata F s ty cls h = ub
    | hang => oStrToRdata F s ty cls h = hang
    | abort => oStrToRdata F s ty cls h = abort := by
  rcases oStrToRdata_le F s ty cls h with e | ⟨hF, e | ⟨_, e⟩⟩
  · rw [e]
    exact .inr (C76_str_to_rdata s ty cls h)
  · exact .inl ⟨hF, .inl e⟩
  · exact .inl ⟨hF, .inr e⟩

/-- **C115 (writing rdata).** The same for `wdns_rdata_to_str`. -/
theorem C115_render (F : Alloc) (mem : List UInt8) (rdlen ty cls : Nat) (h : Heap) :
    (F.Refuses ∧ (oRdataToStr F mem rdlen ty cls h = abort ∨ oRdataToStr F mem rdlen ty cls h = ub)) ∨
    match rdataToStr mem rdlen ty cls with
    | ok t => ∃ b n, oRdataToStr F mem rdlen ty cls h = ok ((t, b), ⟨n, b :: h.live⟩) ∧ h.next ≤ b
    | err e => oRdataToStr F mem rdlen ty cls h = err e
    | ub => oRdataToStr F mem rdlen ty cls h = ub
    | hang => oRdataToStr F mem rdlen ty cls h = hang
    | abort => oRdataToStr F mem rdlen ty cls h = abort :=
by
  rcases oRdataToStr_gen F true mem rdlen ty cls (fun _ _ _ t _ st h => oTField_le F mem t st h) h with ⟨hF, e | ⟨_, e⟩⟩ | e
  · exact .inl ⟨hF, .inl e⟩
  · exact .inl ⟨hF, .inr e⟩
  · exact .inr e

/-- **C115 (writing rdata, in part).**  For a type without base64 text and without SvcParams there is no undefined behaviour either. -/
theorem C115_render_safe_partial (F : Alloc) (mem : List UInt8) (rdlen ty cls : Nat) (h : Heap)
    (hp : ∀ d, recordDescr ty = some d → d.applies cls = true → .bytesB64 ∉ d.types ∧ .svcparams ∉ d.types) :
    (F.Refuses ∧ oRdataToStr F mem rdlen ty cls h = abort) ∨
    match rdataToStr mem rdlen ty cls with
    | ok t => ∃ b n, oRdataToStr F mem rdlen ty cls h = ok ((t, b), ⟨n, b :: h.live⟩) ∧ h.next ≤ b
    | err e => oRdataToStr F mem rdlen ty cls h = err e
    | ub => oRdataToStr F mem rdlen ty cls h = ub
    | hang => oRdataToStr F mem rdlen ty cls h = hang
    | abort => oRdataToStr F mem rdlen ty cls h = abort := by
  have hf : ∀ d, recordDescr ty = some d → d.applies cls = true → ∀ t ∈ d.types, ∀ st h,
      LeH F false h (oTField F mem t st h) (tField mem t st) := by
    intro d hd ha t ht st h
    obtain ⟨n1, n2⟩ := hp d hd ha
    cases t with
    | bytesB64 => exact absurd ht n1
    | svcparams => exact absurd ht n2
    | _ => exact LeH.pure _ _
  rcases oRdataToStr_gen F false mem rdlen ty cls hf h with ⟨hF, e | ⟨e, _⟩⟩ | e
  · exact .inl ⟨hF, e⟩
  · simp at e
  · exact .inr e

/-- The fields that are read without a request for memory (other than enlarging the buffer). -/
def Spec.plainField : Rdf → Bool
  | .bytes | .bytesStr | .salt | .int8 | .int16 | .int32 | .eui48 | .eui64 | .string | .repstring | .ednsOptRdata => true
  | _ => false

/-- **C115 (reading rdata, in part).**  Undefined behaviour can come only from a field that is a name, an address, base64 or base32
text, an rrtype, a list of types or SvcParams: for a type without such a field (or an unknown type, or one used in a class
without layout) a refusal can only end the process by an assertion. -/
theorem C115_text_safe_partial (F : Alloc) (s : List UInt8) (ty cls : Nat) (h : Heap)
    (hp : ∀ d, recordDescr ty = some d → d.applies cls = true → ∀ t ∈ d.types, Spec.plainField t = true) :
    oStrToRdata F s ty cls h = hStrToRdata s ty cls h ∨ (F.Refuses ∧ oStrToRdata F s ty cls h = abort) := by
  have fields : ∀ (ts : List Rdf), (∀ t ∈ ts, Spec.plainField t = true) → ∀ (s : Option (List UInt8)) (u : List UInt8) (h : Heap),
      Le F false (oFields F ts s u h) (hFields ts s u h) := by
    intro ts
    induction ts with
    | nil => intro _ s u h; exact Le.refl _ _
    | cons t ts ih =>
      intro ht s u h
      cases s with
      | none => exact Le.refl _ _
      | some s =>
        unfold oFields hFields
        split
        · exact Le.refl _ _
        · have h1 : oField F t (s.dropWhile isSpace) u h = hField t (s.dropWhile isSpace) u h := by
            have := ht t (List.mem_cons_self ..)
            cases t <;> first | rfl | (simp [Spec.plainField] at this)
          rw [h1]
          refine Le.same _ ?_
          rintro ⟨s' | ⟨r, u'⟩, h'⟩ -
          · exact le_abort_if (ih (fun t' ht' => ht t' (List.mem_cons_of_mem _ ht')) _ _ _)
          · exact Le.refl _ _
  have all : Le F false (oStrToRdata F s ty cls h) (hStrToRdata s ty cls h) := by
    unfold oStrToRdata hStrToRdata
    refine le_ubufNew F _ ?_
    refine Le.bind (b := false) (x := hStrToRdataUbuf [] s ty cls (hUbufNew h).2) ?_ ?_
    · unfold oStrToRdataUbuf hStrToRdataUbuf
      refine Le.bind (b := false) ?_ fun _ _ => Le.refl _ _
      rcases hd : recordDescr ty with _ | d
      · exact Le.refl _ _
      · dsimp only
        split
        · exact fields _ (hp d hd (by assumption)) _ _ _
        · exact Le.refl _ _
    · rintro ⟨⟨r, w⟩, h'⟩ -
      dsimp only
      split
      · exact Le.bind (oUbufDetach_le F _ _) fun _ _ => Le.refl _ _
      · exact Le.refl _ _
  rcases all with e | ⟨hF, e | ⟨e, _⟩⟩
  · exact .inl e
  · exact .inr ⟨hF, e⟩
  · simp at e

/-- **C115, false in part.**  Refusing one single request - the one for the copy of the text - makes reading the text of any A record
undefined (`inet_pton` of `NULL`). -/
theorem C115_text_violated (F : Alloc) (h : Heap) (h0 : F.fails h.next = false) (h1 : F.fails (h.next + 1) = false)
    (h2 : F.fails (h.next + 2) = true) (s : List UInt8) (hs : s.dropWhile isSpace ≠ []) : oStrToRdata F s 1 1 h = ub := by
  unfold oStrToRdata oUbufNew Heap.myMalloc
  have h1' : F.fails h.malloc.2.next = false := h1
  simp only [h0, h1', Bool.false_eq_true, if_false, ok_bind]
  unfold oStrToRdataUbuf
  have hd : recordDescr 1 = some ⟨1, [.ipv4]⟩ := by rfl
  have ha : (Descr.applies ⟨1, [.ipv4]⟩ 1) = true := by rfl
  rw [hd]
  dsimp only
  rw [if_pos ha]
  unfold oFields
  rw [if_neg hs]
  have h2' : F.fails h.malloc.2.malloc.2.next = true := h2
  unfold oField Heap.cMalloc
  simp only [h2', if_true]
  rfl

/-- **C115, false in part.**  The same for writing any non-empty OPENPGPKEY rdata (`bytes_to_ubuf_base64` writes to `NULL`). -/
theorem C115_render_violated (F : Alloc) (h : Heap) (h0 : F.fails h.next = false) (h1 : F.fails (h.next + 1) = false)
    (h2 : F.fails (h.next + 2) = true) (w : List UInt8) (hw : w ≠ []) (hl : w.length < 65536) (cls : Nat) :
    oRdataToStr F w w.length 61 cls h = ub := by
  unfold oRdataToStr oUbufNew Heap.myMalloc
  have h1' : F.fails h.malloc.2.next = false := h1
  simp only [h0, h1', Bool.false_eq_true, if_false, ok_bind]
  unfold oRdataToUbuf
  have hd : recordDescr 61 = some ⟨0, [.bytesB64]⟩ := by rfl
  have ha : (Descr.applies ⟨0, [.bytesB64]⟩ cls) = true := by rfl
  rw [hd]
  dsimp only
  rw [if_pos ha]
  unfold oTFields
  have hne : ¬ ((w.length : Int) = 0) := by
    have := List.length_pos_iff.mpr hw
    omega
  rw [if_neg hne]
  have h2' : F.fails h.malloc.2.malloc.2.next = true := h2
  unfold oTField oBytesToBase64 Heap.cMalloc
  have hr : rdN w 0 ((w.length : Int) % 65536).toNat = ok w := by
    have : ((w.length : Int) % 65536).toNat = w.length := by omega
    rw [this]
    simp [rdN]
  simp only [hr, ok_bind, h2', if_true, if_neg hw]
  rfl

/-- The hypotheses are met: an allocator that refuses one request only, a heap with two blocks, `10.0.0.1` and a key of three octets; a text of
TXT strings, which is read without such requests, ends in the assertion if the second request is refused and is read otherwise;
and a message is parsed if nothing it needs is refused. -/
example : (⟨fun n => n = 7, fun _ => false⟩ : Alloc).Refuses ∧ (⟨5, [3, 1]⟩ : Heap).Wf ∧
    oStrToRdata ⟨fun n => n = 7, fun _ => false⟩ (ascii " 10.0.0.1") 1 1 ⟨5, [3, 1]⟩ = ub ∧
    oRdataToStr ⟨fun n => n = 7, fun _ => false⟩ [1, 2, 3] 3 61 1 ⟨5, [3, 1]⟩ = ub ∧
    oStrToRdata ⟨fun n => n = 6, fun _ => false⟩ (ascii "abc") 16 1 ⟨5, [3, 1]⟩ = abort ∧
    oStrToRdata ⟨fun n => n = 9, fun _ => false⟩ (ascii "\"abc\"") 16 1 ⟨5, [3, 1]⟩ = ok (.ok ([3, 97, 98, 99], 6), ⟨8, [6, 3, 1]⟩) ∧
    (∀ d, recordDescr 16 = some d → d.applies 1 = true → ∀ t ∈ d.types, Spec.plainField t = true) := by
  refine ⟨⟨7, .inl rfl⟩, ?_, by decide +kernel, by decide +kernel, by decide +kernel, by decide +kernel, ?_⟩
  · refine ⟨by decide, ?_⟩
    intro b hb
    simp at hb
    rcases hb with rfl | rfl <;> simp
  · intro d hd _ t ht
    cases hd
    simp at ht
    subst ht
    rfl

/-- `C115_parse`: the sample message of `Props/Message.lean` is parsed if the requests it makes are granted, and refusing its fourth request
ends the process. -/
example : (⟨0, []⟩ : Heap).Wf ∧
    (match oParseMessage ⟨fun n => n ≥ 1000, fun _ => false⟩ sampleMsg sampleMsg.length ⟨0, []⟩ with
      | ok (.ok (), _, _) => true | _ => false) = true ∧
    oParseMessage ⟨fun n => n = 3, fun _ => false⟩ sampleMsg sampleMsg.length ⟨0, []⟩ = abort :=
  ⟨⟨List.nodup_nil, by simp⟩, by decide +kernel, by decide +kernel⟩

end Wdns
