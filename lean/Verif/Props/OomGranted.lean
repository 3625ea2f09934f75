import Verif.Props.Oom

/-!
# C115: a call that returns was refused nothing

The other half of C115 (`Props/Oom.lean`): no refusal goes unnoticed.  If one of the functions returns, with a result or an error code, then every
request for memory it made was granted.
-/

namespace Wdns
open Outcome

/-- Between the two heaps every request was granted. -/
def Gr (F : Alloc) (h h' : Heap) : Prop := h.next ≤ h'.next ∧ ∀ n, h.next ≤ n → n < h'.next → F.fails n = false

theorem Gr.refl (F : Alloc) (h : Heap) : Gr F h h := ⟨Nat.le_refl _, fun n h1 h2 => by omega⟩

/-- If the computation returns, every request since `h0` was granted; `hp` finds the heap in the result. -/
def GrOk (F : Alloc) (h0 : Heap) {α : Type} (hp : α → Heap) (y : Outcome α) : Prop := ∀ a, y = ok a → Gr F h0 (hp a)

variable {F : Alloc} {h0 h : Heap} {α β : Type} {hp : α → Heap} {hq : β → Heap}

theorem GrOk.ok {a : α} (g : Gr F h0 (hp a)) : GrOk F h0 hp (ok a) := by
  intro b e; cases e; exact g

theorem GrOk.err {e : Res} : GrOk F h0 hp (err e) := by intro b h; cases h
theorem GrOk.ub : GrOk F h0 hp Outcome.ub := by intro b h; cases h
theorem GrOk.hang : GrOk F h0 hp Outcome.hang := by intro b h; cases h
theorem GrOk.abort : GrOk F h0 hp Outcome.abort := by intro b h; cases h

theorem GrOk.bind {y : Outcome α} {f : α → Outcome β} (g : GrOk F h0 hp y) (k : ∀ a, Gr F h0 (hp a) → GrOk F h0 hq (f a)) :
    GrOk F h0 hq (y >>= f) := by
  intro b e
  obtain ⟨a, h1, h2⟩ := bind_eq_ok.mp e
  exact k a (g a h1) b h2

theorem GrOk.pure {y : Outcome α} {f : α → Outcome β} (k : ∀ a, GrOk F h0 hq (f a)) : GrOk F h0 hq (y >>= f) := by
  intro b e
  obtain ⟨a, h1, h2⟩ := bind_eq_ok.mp e
  exact k a b h2

theorem Gr.malloc (g : Gr F h0 h) (hf : F.fails h.next = false) : Gr F h0 h.malloc.2 := by
  refine ⟨Nat.le_succ_of_le g.1, fun n h1 h2 => ?_⟩
  have h2' : n < h.next + 1 := h2
  by_cases e : n = h.next
  · rw [e]; exact hf
  · exact g.2 n h1 (by omega)

theorem gr_malloc (g : Gr F h0 h) : GrOk F h0 Prod.snd (h.myMalloc F) := by
  unfold Heap.myMalloc
  split
  · exact GrOk.abort
  · rename_i hf
    exact GrOk.ok (g.malloc (by simpa using hf))

theorem free_next {h h' : Heap} {p : Ptr} (e : h.free p = ok h') : h'.next = h.next := by
  unfold Heap.free at e
  split at e
  · cases e; rfl
  · split at e
    · cases e; rfl
    · cases e

theorem gr_free (g : Gr F h0 h) (p : Ptr) : GrOk F h0 id (h.free p) := by
  intro h' e
  have := free_next e
  refine ⟨?_, ?_⟩
  · show h0.next ≤ h'.next
    rw [this]; exact g.1
  · intro n h1 h2
    have h2' : n < h'.next := h2
    rw [this] at h2'
    exact g.2 n h1 h2'

theorem gr_realloc (g : Gr F h0 h) (p : Ptr) : GrOk F h0 Prod.snd (h.myRealloc F p) := by
  unfold Heap.myRealloc
  exact GrOk.bind (gr_free g p) fun h g => gr_malloc g

/-- A block from `malloc` that is used at once. -/
theorem gr_cMalloc (g : Gr F h0 h) {f : Ptr → Heap → Outcome β}
    (hn : F.fails h.next = true → GrOk F h0 hq (f none ⟨h.next + 1, h.live⟩))
    (k : ∀ p h', Gr F h0 h' → GrOk F h0 hq (f p h')) : GrOk F h0 hq (f (h.cMalloc F).1 (h.cMalloc F).2) := by
  unfold Heap.cMalloc
  cases hf : F.fails h.next
  · simp only [Bool.false_eq_true, if_false]
    exact k _ _ (g.malloc hf)
  · simp only [if_true]
    exact hn hf

theorem gr_use_none {h : Heap} {f : Unit → Outcome β} : GrOk F h0 hq (h.use none >>= f) := by
  intro b e; cases e

theorem gr_parseRdata (g : Gr F h0 h) (mem : List UInt8) (p eop rdata rdlen rrtype rrclass : Nat) :
    GrOk F h0 Prod.snd (oParseRdata F mem p eop rdata rdlen rrtype rrclass h) := by
  unfold oParseRdata
  refine GrOk.bind (gr_malloc g) fun ⟨u, h⟩ g => ?_
  refine GrOk.bind (gr_malloc g) fun ⟨v, h⟩ g => ?_
  dsimp only at g ⊢
  split
  · exact GrOk.abort
  · split
    · refine GrOk.bind (gr_malloc g) fun ⟨d, h⟩ g => ?_
      refine GrOk.pure fun _ => ?_
      refine GrOk.bind (gr_free g _) fun h g => ?_
      refine GrOk.bind (gr_free g _) fun h g => ?_
      exact GrOk.ok g
    · refine GrOk.bind (gr_free g _) fun h g => ?_
      refine GrOk.bind (gr_free g _) fun h g => ?_
      exact GrOk.ok g
    · exact GrOk.ub
    · exact GrOk.hang
    · exact GrOk.abort

theorem gr_clearRr (g : Gr F h0 h) (rr : HRR) : GrOk F h0 Prod.snd (hClearRr rr h) := by
  unfold hClearRr
  refine GrOk.bind (gr_free g _) fun h g => ?_
  refine GrOk.bind (gr_free g _) fun h g => ?_
  exact GrOk.ok g

theorem gr_parseMessageRr (g : Gr F h0 h) (sec : Nat) (mem : List UInt8) (p eop data : Nat) :
    GrOk F h0 Prod.snd (oParseMessageRr F sec mem p eop data h) := by
  unfold oParseMessageRr
  split
  · exact GrOk.ub
  · exact GrOk.hang
  · exact GrOk.abort
  · exact GrOk.ok g
  · refine GrOk.bind (gr_malloc g) fun ⟨nb, h⟩ g => ?_
    refine GrOk.pure fun ⟨src, _⟩ => ?_
    dsimp only at g ⊢
    split
    · refine GrOk.bind (gr_free g _) fun h g => ?_
      exact GrOk.ok g
    · refine GrOk.pure fun t0 => GrOk.pure fun t1 => GrOk.pure fun c0 => GrOk.pure fun c1 => ?_
      split
      · exact GrOk.ok g
      · refine GrOk.pure fun _ => GrOk.pure fun _ => GrOk.pure fun _ => GrOk.pure fun _ => GrOk.pure fun _ => GrOk.pure fun _ => ?_
        split
        · refine GrOk.bind (gr_free g _) fun h g => ?_
          exact GrOk.ok g
        · refine GrOk.bind (gr_parseRdata g _ _ _ _ _ _ _) fun ⟨r, h⟩ g => ?_
          dsimp only at g ⊢
          split
          · refine GrOk.bind (gr_free g _) fun h g => ?_
            exact GrOk.ok g
          · exact GrOk.ok g

/-- The heap of a search that found something. -/
def foundHeap (h : Heap) : Option (List HRRset × Heap) → Heap
  | none => h
  | some (_, h') => h'

theorem gr_insertFind (g : Gr F h0 h) (blk : Ptr) (rr : HRR) (l : List HRRset) :
    GrOk F h0 (foundHeap h) (oInsertFind F blk rr h l) := by
  induction l with
  | nil => unfold oInsertFind; exact GrOk.ok g
  | cons s rest ih =>
    unfold oInsertFind
    refine GrOk.pure fun _ => GrOk.pure fun _ => GrOk.pure fun _ => GrOk.pure fun m => ?_
    split
    · split
      · exact GrOk.abort
      · split
        · exact GrOk.ub
        · refine GrOk.bind (gr_realloc g _) fun ⟨ab, h'⟩ g => ?_
          exact GrOk.ok g
    · refine GrOk.bind ih fun r g => ?_
      cases r with
      | none => exact GrOk.ok g
      | some r => exact GrOk.ok g

theorem gr_insertRr (g : Gr F h0 h) (a : HArr) (rr : HRR) (sec : Nat) : GrOk F h0 Prod.snd (oInsertRr F a rr sec h) := by
  unfold oInsertRr
  split
  · exact GrOk.abort
  · refine GrOk.bind (gr_realloc g _) fun ⟨rb, h⟩ g => ?_
    refine GrOk.bind (gr_malloc g) fun ⟨nb, h⟩ g => ?_
    refine GrOk.pure fun _ => GrOk.pure fun newRr => ?_
    dsimp only at g ⊢
    by_cases hs : sec = 0
    · simp only [hs, ne_eq, not_true, if_true, if_false, ok_bind]
      split
      · exact GrOk.abort
      · refine GrOk.bind (gr_realloc g _) fun ⟨sb, h⟩ g => ?_
        refine GrOk.bind (gr_clearRr g _) fun ⟨_, h⟩ g => ?_
        exact GrOk.ok g
    · simp only [hs, ne_eq, not_false_eq_true, if_true, if_false]
      refine GrOk.pure fun _ => ?_
      refine GrOk.bind (gr_malloc g) fun ⟨db, h⟩ g => ?_
      simp only [ok_bind]
      refine GrOk.bind (gr_insertFind g _ _ _) fun found g => ?_
      cases found with
      | some r =>
        obtain ⟨rs, h⟩ := r
        refine GrOk.bind (gr_clearRr g _) fun ⟨_, h⟩ g => ?_
        exact GrOk.ok g
      | none =>
        dsimp only
        split
        · exact GrOk.abort
        · refine GrOk.bind (gr_realloc g _) fun ⟨sb, h⟩ g => ?_
          refine GrOk.bind (gr_malloc g) fun ⟨ab, h⟩ g => ?_
          refine GrOk.bind (gr_clearRr g _) fun ⟨_, h⟩ g => ?_
          exact GrOk.ok g

theorem gr_parseEdns (g : Gr F h0 h) (hdr : Hdr) (rr : HRR) : GrOk F h0 (fun x => x.2.2) (hParseEdns hdr rr h) := by
  unfold hParseEdns
  refine GrOk.bind (gr_clearRr g _) fun ⟨_, h⟩ g => ?_
  exact GrOk.ok g

theorem gr_parseSection (sec : Nat) (mem : List UInt8) (len n : Nat) : ∀ (st : HSecState) (h : Heap), Gr F h0 h →
    GrOk F h0 (fun x => x.2.2) (oParseSection F sec mem len n st h) := by
  induction n with
  | zero => intro st h g; unfold oParseSection; exact GrOk.ok g
  | succ n ih =>
    intro st h g
    unfold oParseSection
    split
    · exact GrOk.ok g
    · refine GrOk.bind (gr_parseMessageRr g _ _ _ _ _) fun ⟨r, h⟩ g => ?_
      dsimp only at g ⊢
      split
      · exact GrOk.ok g
      · split
        · refine GrOk.bind (gr_parseEdns g _ _) fun ⟨_, _, h⟩ g => ?_
          exact ih _ _ g
        · refine GrOk.bind (gr_insertRr g _ _ _) fun ⟨_, h⟩ g => ?_
          exact ih _ _ g

theorem gr_parseSections (mem : List UInt8) (len : Nat) : ∀ (l : List (Nat × Nat)) (p : Nat) (hdr : Hdr) (o : Ptr) (done : List HArr) (h : Heap),
    Gr F h0 h → GrOk F h0 (fun x => x.2.2.2.2) (oParseSections F mem len l p hdr o done h) := by
  intro l
  induction l with
  | nil => intro p hdr o done h g; unfold oParseSections; exact GrOk.ok g
  | cons s rest ih =>
    obtain ⟨sec, c⟩ := s
    intro p hdr o done h g
    unfold oParseSections
    refine GrOk.bind (gr_parseSection _ _ _ _ _ _ g) fun ⟨r, st, h⟩ g => ?_
    dsimp only at g ⊢
    split
    · exact GrOk.ok g
    · exact GrOk.ok g
    · exact ih _ _ _ _ _ g

theorem gr_freeItems (arr : Ptr) : ∀ (l : List Ptr) (h : Heap), Gr F h0 h → GrOk F h0 id (hFreeItems arr l h) := by
  intro l
  induction l with
  | nil => intro h g; unfold hFreeItems; exact GrOk.ok g
  | cons p ps ih =>
    intro h g
    unfold hFreeItems
    refine GrOk.pure fun _ => ?_
    exact GrOk.bind (gr_free g _) fun h g => ih _ g

theorem gr_clearRrset (g : Gr F h0 h) (s : HRRset) : GrOk F h0 Prod.snd (hClearRrset s h) := by
  unfold hClearRrset
  refine GrOk.bind (gr_freeItems _ _ _ g) fun h g => ?_
  refine GrOk.bind (gr_free g _) fun h g => ?_
  refine GrOk.bind (gr_free g _) fun h g => ?_
  exact GrOk.ok g

theorem gr_clearRrs (blk : Ptr) : ∀ (l : List HRR) (h : Heap), Gr F h0 h → GrOk F h0 id (hClearRrs blk l h) := by
  intro l
  induction l with
  | nil => intro h g; unfold hClearRrs; exact GrOk.ok g
  | cons p ps ih =>
    intro h g
    unfold hClearRrs
    refine GrOk.pure fun _ => ?_
    exact GrOk.bind (gr_clearRr g _) fun ⟨_, h⟩ g => ih _ g

theorem gr_clearRrsets (blk : Ptr) : ∀ (l : List HRRset) (h : Heap), Gr F h0 h → GrOk F h0 id (hClearRrsets blk l h) := by
  intro l
  induction l with
  | nil => intro h g; unfold hClearRrsets; exact GrOk.ok g
  | cons p ps ih =>
    intro h g
    unfold hClearRrsets
    refine GrOk.pure fun _ => ?_
    exact GrOk.bind (gr_clearRrset g _) fun ⟨_, h⟩ g => ih _ g

theorem gr_clearArrs : ∀ (l : List HArr) (h : Heap), Gr F h0 h → GrOk F h0 Prod.snd (hClearArrs l h) := by
  intro l
  induction l with
  | nil => intro h g; unfold hClearArrs; exact GrOk.ok g
  | cons a as ih =>
    intro h g
    unfold hClearArrs
    refine GrOk.bind (hp := Prod.snd) ?_ fun ⟨_, h⟩ g => GrOk.bind (ih _ g) fun ⟨_, h⟩ g => GrOk.ok g
    unfold hClearArr
    refine GrOk.bind (gr_clearRrs _ _ _ g) fun h g => ?_
    refine GrOk.bind (gr_free g _) fun h g => ?_
    refine GrOk.bind (gr_clearRrsets _ _ _ g) fun h g => ?_
    refine GrOk.bind (gr_free g _) fun h g => ?_
    exact GrOk.ok g

theorem gr_parseMessage (g : Gr F h0 h) (mem : List UInt8) (len : Nat) : GrOk F h0 (fun x => x.2.2) (oParseMessage F mem len h) := by
  unfold oParseMessage
  split
  · exact GrOk.ok g
  · refine GrOk.pure fun hd => ?_
    refine GrOk.bind (gr_parseSections _ _ _ _ _ _ _ _ g) fun ⟨r, hdr, o, secs, h⟩ g => ?_
    dsimp only at g ⊢
    split
    · exact GrOk.ok g
    · unfold hClearMessage
      refine GrOk.bind (hp := Prod.snd) ?_ fun ⟨_, h⟩ g => GrOk.ok g
      refine GrOk.bind (gr_free g _) fun h g => ?_
      refine GrOk.bind (gr_clearArrs _ _ g) fun ⟨_, h⟩ g => ?_
      exact GrOk.ok g

theorem gr_copyBytes (g : Gr F h0 h) (s : HRRset) (buf : List UInt8) (sz off n : Nat)
    {k : List UInt8 → Outcome (Except Res Unit × HRRset × Heap)} (hk : ∀ b, GrOk F h0 (fun x => x.2.2) (k b)) :
    GrOk F h0 (fun x => x.2.2) (hCopyBytes s buf sz off n h k) := by
  unfold hCopyBytes
  split
  · refine GrOk.bind (gr_clearRrset g _) fun ⟨_, h⟩ g => ?_
    exact GrOk.ok g
  · exact GrOk.pure hk

theorem gr_deserializeRdatas (le : Bool) (buf : List UInt8) (sz : Nat) (s : HRRset) (n : Nat) : ∀ (off : Nat) (acc : List CRdata) (accp : List Ptr) (h : Heap),
    Gr F h0 h → GrOk F h0 (fun x => x.2.2) (oDeserializeRdatas F le buf sz s n off acc accp h) := by
  induction n with
  | zero => intro off acc accp h g; unfold oDeserializeRdatas; exact GrOk.ok g
  | succ n ih =>
    intro off acc accp h g
    unfold oDeserializeRdatas
    refine gr_copyBytes g _ _ _ _ _ fun b => ?_
    refine GrOk.pure fun _ => ?_
    refine GrOk.bind (gr_malloc g) fun ⟨d, h⟩ g => ?_
    exact gr_copyBytes g _ _ _ _ _ fun b => ih _ _ _ _ g

theorem gr_deserializeRrset (g : Gr F h0 h) (le : Bool) (buf : List UInt8) (sz : Nat) :
    GrOk F h0 (fun x => x.2.2) (oDeserializeRrset F le buf sz h) := by
  unfold oDeserializeRrset
  refine gr_copyBytes g _ _ _ _ _ fun b => ?_
  refine GrOk.bind (gr_malloc g) fun ⟨nb, h⟩ g => ?_
  refine gr_copyBytes g _ _ _ _ _ fun nm => ?_
  refine gr_copyBytes g _ _ _ _ _ fun t => ?_
  refine gr_copyBytes g _ _ _ _ _ fun c => ?_
  refine gr_copyBytes g _ _ _ _ _ fun l => ?_
  refine gr_copyBytes g _ _ _ _ _ fun k => ?_
  refine GrOk.bind (gr_malloc g) fun ⟨ab, h⟩ g => ?_
  exact gr_deserializeRdatas _ _ _ _ _ _ _ _ _ g

theorem gr_strToNameGen (g : Gr F h0 h) (s : List UInt8) (d : Bool) : GrOk F h0 Prod.snd (oStrToNameGen F s d h) := by
  unfold oStrToNameGen
  split
  · refine GrOk.bind (gr_malloc g) fun ⟨b, h⟩ g => ?_
    exact GrOk.ok g
  · refine GrOk.bind (gr_malloc g) fun ⟨b, h⟩ g => ?_
    dsimp only at g ⊢
    split
    · exact GrOk.ok g
    · refine GrOk.bind (gr_free g _) fun h g => ?_
      exact GrOk.ok g
    · exact GrOk.ub
    · exact GrOk.hang
    · exact GrOk.abort

/-- What `malloc` returns is `NULL`, or it was granted. -/
theorem gr_c (g : Gr F h0 h) {p : Ptr} {h1 : Heap} (e : h.cMalloc F = (p, h1)) : p = none ∨ Gr F h0 h1 := by
  unfold Heap.cMalloc at e
  split at e
  · cases e; exact .inl rfl
  · rename_i hf
    cases e
    exact .inr (g.malloc (by simpa using hf))

theorem gr_base64 (g : Gr F h0 h) (s : List UInt8) : GrOk F h0 Prod.snd (oBase64 F s h) := by
  unfold oBase64
  cases e : h.cMalloc F with
  | mk b h =>
    dsimp only
    rcases gr_c g e with rfl | g
    · exact gr_use_none
    · refine GrOk.pure fun _ => GrOk.pure fun r => GrOk.pure fun _ => ?_
      refine GrOk.bind (gr_free g _) fun h g => ?_
      exact GrOk.ok g

theorem gr_svcEchTok (g : Gr F h0 h) (c u : List UInt8) : GrOk F h0 Prod.snd (oSvcEchTok F c u h) := by
  unfold oSvcEchTok
  split
  · exact GrOk.ok g
  · split
    · exact GrOk.ok g
    · refine GrOk.bind (gr_base64 g _) fun ⟨b, h⟩ g => ?_
      exact GrOk.ok g

theorem gr_strToSvcparam (g : Gr F h0 h) (u : List UInt8) (key : Nat) (v : Option (List UInt8)) :
    GrOk F h0 Prod.snd (oStrToSvcparam F u key v h) := by
  unfold oStrToSvcparam
  split
  · split
    · exact GrOk.ub
    · refine GrOk.bind (gr_svcEchTok g _ _) fun ⟨⟨r, n, u2⟩, h⟩ g => ?_
      dsimp only at g ⊢
      split
      · exact GrOk.ok g
      · exact GrOk.ok g
  · refine GrOk.pure fun r => ?_
    exact GrOk.ok g

theorem gr_svcparams (n : Nat) : ∀ (s u : List UInt8) (h : Heap), Gr F h0 h → GrOk F h0 Prod.snd (oSvcparams F n s u h) := by
  induction n with
  | zero => intro s u h g; unfold oSvcparams; exact GrOk.hang
  | succ n ih =>
    intro s u h g
    unfold oSvcparams
    split
    · exact GrOk.ok g
    · split
      · exact ih _ _ _ g
      · cases e : h.cMalloc F with
        | mk d h =>
          dsimp only
          rcases gr_c g e with rfl | g
          · exact gr_use_none
          · refine GrOk.pure fun _ => ?_
            refine GrOk.bind (gr_free g _) fun h g => ?_
            split
            · exact GrOk.ok g
            · split
              · split
                · exact GrOk.ok g
                · refine GrOk.bind (gr_strToSvcparam g _ _ _) fun ⟨⟨r, u⟩, h⟩ g => ?_
                  dsimp only at g ⊢
                  split
                  · exact GrOk.ok g
                  · exact ih _ _ _ g
              · split
                · exact GrOk.ok g
                · cases e : Heap.cMalloc F h with
                  | mk d h =>
                    dsimp only
                    rcases gr_c g e with rfl | g
                    · exact gr_use_none
                    · refine GrOk.pure fun _ => ?_
                      refine GrOk.bind (gr_strToSvcparam g _ _ _) fun ⟨⟨r, u⟩, h⟩ g => ?_
                      refine GrOk.pure fun _ => ?_
                      refine GrOk.bind (gr_free g _) fun h g => ?_
                      dsimp only
                      split
                      · exact GrOk.ok g
                      · exact ih _ _ _ g

theorem gr_u16Add (g : Gr F h0 h) (v n cap : Nat) : GrOk F h0 Prod.snd (oU16Add F v n cap h) := by
  unfold oU16Add
  split
  · refine GrOk.bind (gr_realloc g _) fun ⟨v, h⟩ g => ?_
    exact GrOk.ok g
  · refine GrOk.pure fun _ => ?_
    exact GrOk.ok g

theorem gr_u16Destroy (g : Gr F h0 h) (b v : Nat) : GrOk F h0 id (hU16Destroy b v h) := by
  unfold hU16Destroy
  first
  | exact GrOk.bind (gr_free g _) fun h g => gr_free g _
  | (refine GrOk.pure fun _ => ?_; exact GrOk.bind (gr_free g _) fun h g => gr_free g _)

theorem gr_types (b n : Nat) : ∀ (s : Option (List UInt8)) (v k cap : Nat) (h : Heap), Gr F h0 h →
    GrOk F h0 Prod.snd (oTypes F b n s v k cap h) := by
  induction n with
  | zero => intro s v k cap h g; unfold oTypes; exact GrOk.hang
  | succ n ih =>
    intro s v k cap h g
    cases s with
    | none => unfold oTypes; exact GrOk.ok g
    | some s =>
      cases s with
      | nil => unfold oTypes; exact GrOk.ok g
      | cons c cs =>
        unfold oTypes
        dsimp only
        split
        · exact ih _ _ _ _ _ g
        · cases e : h.cMalloc F with
          | mk d h =>
            dsimp only
            rcases gr_c g e with rfl | g
            · exact gr_use_none
            · refine GrOk.pure fun _ => GrOk.pure fun t => GrOk.pure fun _ => ?_
              split
              · refine GrOk.bind (gr_free g _) fun h g => ?_
                refine GrOk.bind (gr_u16Destroy g _ _) fun h g => ?_
                exact GrOk.ok g
              · refine GrOk.bind (gr_free g _) fun h g => ?_
                refine GrOk.bind (gr_u16Add g _ _ _) fun ⟨⟨v, k, cap⟩, h⟩ g => ?_
                refine GrOk.bind (ih _ _ _ _ _ g) fun ⟨r, h⟩ g => ?_
                exact GrOk.ok g

theorem gr_bitmap (g : Gr F h0 h) (s u : List UInt8) : GrOk F h0 Prod.snd (oBitmap F s u h) := by
  unfold oBitmap
  refine GrOk.bind (gr_malloc g) fun ⟨b, h⟩ g => ?_
  refine GrOk.bind (gr_malloc g) fun ⟨v, h⟩ g => ?_
  refine GrOk.bind (gr_types _ _ _ _ _ _ _ g) fun ⟨r, h⟩ g => ?_
  cases r with
  | none => exact GrOk.ok g
  | some r =>
    obtain ⟨ts, v⟩ := r
    refine GrOk.pure fun _ => ?_
    refine GrOk.bind (gr_u16Destroy g _ _) fun h g => ?_
    exact GrOk.ok g

theorem gr_prefix (g : Gr F h0 h) (s u : List UInt8) : GrOk F h0 Prod.snd (oPrefix F s u h) := by
  unfold oPrefix
  split
  · split
    · exact GrOk.ub
    · exact GrOk.ok g
    · split
      · exact GrOk.ok g
      · unfold oPrefixAddr
        split
        · exact GrOk.ok g
        · cases e : h.cMalloc F with
          | mk d h =>
            dsimp only
            rcases gr_c g e with rfl | g
            · exact gr_use_none
            · refine GrOk.pure fun _ => ?_
              refine GrOk.bind (gr_free g _) fun h g => ?_
              split
              · split
                · split <;> exact GrOk.ok g
                · exact GrOk.ok g
              · split <;> exact GrOk.ok g
  · exact GrOk.ok g

theorem gr_field (g : Gr F h0 h) (t : Rdf) (s u : List UInt8) : GrOk F h0 Prod.snd (oField F t s u h) := by
  have nameCase : GrOk F h0 Prod.snd (oField F .name s u h) := by
    unfold oField
    cases e : h.cMalloc F with
    | mk sb h =>
      dsimp only
      cases e' : Heap.cMalloc F h with
      | mk nb h =>
        dsimp only
        rcases gr_c g e with rfl | g
        · exact gr_use_none
        · refine GrOk.pure fun _ => ?_
          rcases gr_c g e' with rfl | g
          · exact gr_use_none
          · refine GrOk.pure fun _ => ?_
            refine GrOk.bind (gr_strToNameGen g _ _) fun ⟨r, h⟩ g => ?_
            dsimp only at g ⊢
            split
            · rename_i e
              simp only [Prod.mk.injEq] at e
              obtain ⟨rfl, rfl⟩ := e
              refine GrOk.bind (gr_free g _) fun h g => ?_
              refine GrOk.bind (gr_free g _) fun h g => ?_
              exact GrOk.ok g
            · rename_i e
              simp only [Prod.mk.injEq] at e
              obtain ⟨rfl, rfl⟩ := e
              refine GrOk.pure fun _ => GrOk.pure fun _ => ?_
              refine GrOk.bind (gr_free g _) fun h g => ?_
              refine GrOk.pure fun _ => ?_
              refine GrOk.bind (gr_free g _) fun h g => ?_
              refine GrOk.bind (gr_free g _) fun h g => ?_
              exact GrOk.ok g
  have addrCase : ∀ t', GrOk F h0 Prod.snd (match h.cMalloc F with
      | (d, h) => h.use d >>= fun _ => sField t' s u >>= fun r => h.free d >>= fun h => ok (r, h)) := by
    intro t'
    cases e : h.cMalloc F with
    | mk d h =>
      dsimp only
      rcases gr_c g e with rfl | g
      · exact gr_use_none
      · refine GrOk.pure fun _ => GrOk.pure fun r => ?_
        refine GrOk.bind (gr_free g _) fun h g => ?_
        exact GrOk.ok g
  cases t with
  | name => exact nameCase
  | uname => exact nameCase
  | bytesB64 =>
    unfold oField
    refine GrOk.bind (gr_base64 g _) fun ⟨b, h⟩ g => ?_
    exact GrOk.ok g
  | ipv6prefix => unfold oField; exact gr_prefix g _ _
  | hash =>
    unfold oField
    dsimp only
    split
    · exact GrOk.ok g
    · cases e : h.cMalloc F with
      | mk b h =>
        dsimp only
        rcases gr_c g e with rfl | g
        · exact gr_use_none
        · refine GrOk.pure fun _ => ?_
          split
          · refine GrOk.bind (gr_free g _) fun h g => ?_
            exact GrOk.ok g
          · split
            · refine GrOk.bind (gr_free g _) fun h g => ?_
              exact GrOk.ok g
            · refine GrOk.pure fun _ => ?_
              refine GrOk.bind (gr_free g _) fun h g => ?_
              exact GrOk.ok g
  | ipv4 => exact addrCase .ipv4
  | ipv6 => exact addrCase .ipv6
  | rrtype =>
    unfold oField
    cases e : h.cMalloc F with
    | mk d h =>
      dsimp only
      rcases gr_c g e with rfl | g
      · exact gr_use_none
      · refine GrOk.pure fun _ => GrOk.pure fun t => ?_
        refine GrOk.bind (gr_free g _) fun h g => ?_
        split
        · exact GrOk.ok g
        · exact GrOk.ok g
  | svcparams => unfold oField; exact gr_svcparams _ _ _ _ g
  | typeBitmap => unfold oField; exact gr_bitmap g _ _
  | _ => unfold oField; exact GrOk.pure fun r => GrOk.ok g

theorem gr_fields : ∀ (ts : List Rdf) (s : Option (List UInt8)) (u : List UInt8) (h : Heap), Gr F h0 h →
    GrOk F h0 Prod.snd (oFields F ts s u h) := by
  intro ts
  induction ts with
  | nil => intro s u h g; unfold oFields; exact GrOk.ok g
  | cons t ts ih =>
    intro s u h g
    cases s with
    | none => unfold oFields; exact GrOk.ok g
    | some s =>
      unfold oFields
      split
      · exact GrOk.ok g
      · refine GrOk.bind (gr_field g _ _ _) fun ⟨r, h⟩ g => ?_
        cases r with
        | go s u =>
          dsimp only
          split
          · exact GrOk.abort
          · exact ih _ _ _ g
        | bad e u => exact GrOk.ok g

theorem gr_strToRdataUbuf (g : Gr F h0 h) (u s : List UInt8) (ty cls : Nat) : GrOk F h0 Prod.snd (oStrToRdataUbuf F u s ty cls h) := by
  unfold oStrToRdataUbuf
  refine GrOk.bind (hp := Prod.snd) ?_ fun ⟨r, h⟩ g => ?_
  · split
    · exact GrOk.pure fun r => GrOk.ok g
    · split
      · exact gr_fields _ _ _ _ g
      · exact GrOk.ok g
  · cases r <;> exact GrOk.ok g

theorem gr_ubufNew (g : Gr F h0 h) : GrOk F h0 Prod.snd (oUbufNew F h) := by
  unfold oUbufNew
  refine GrOk.bind (gr_malloc g) fun ⟨b, h⟩ g => ?_
  refine GrOk.bind (gr_malloc g) fun ⟨v, h⟩ g => ?_
  exact GrOk.ok g

theorem gr_ubufDetach (g : Gr F h0 h) (u : HUbuf) : GrOk F h0 (fun x => x.2.2) (oUbufDetach F u h) := by
  unfold oUbufDetach
  refine GrOk.pure fun _ => ?_
  refine GrOk.bind (gr_malloc g) fun ⟨v, h⟩ g => ?_
  exact GrOk.ok g

theorem gr_ubufDestroy (g : Gr F h0 h) (u : HUbuf) : GrOk F h0 id (hUbufDestroy u h) := by
  unfold hUbufDestroy
  refine GrOk.pure fun _ => ?_
  exact GrOk.bind (gr_free g _) fun h g => gr_free g _

theorem gr_strToRdata (g : Gr F h0 h) (s : List UInt8) (ty cls : Nat) : GrOk F h0 Prod.snd (oStrToRdata F s ty cls h) := by
  unfold oStrToRdata
  refine GrOk.bind (gr_ubufNew g) fun ⟨u, h⟩ g => ?_
  refine GrOk.bind (gr_strToRdataUbuf g _ _ _ _) fun ⟨⟨r, w⟩, h⟩ g => ?_
  dsimp only at g ⊢
  split
  · refine GrOk.bind (gr_ubufDetach g _) fun ⟨b, u, h⟩ g => ?_
    refine GrOk.bind (gr_ubufDestroy g _) fun h g => ?_
    exact GrOk.ok g
  · refine GrOk.bind (gr_ubufDestroy g _) fun h g => ?_
    exact GrOk.ok g

theorem gr_tFields (mem : List UInt8) : ∀ (ts : List Rdf), .bytesB64 ∉ ts → .svcparams ∉ ts → ∀ (st : TState) (h : Heap), Gr F h0 h →
    GrOk F h0 Prod.snd (oTFields F mem ts st h) := by
  intro ts
  induction ts with
  | nil => intro _ _ st h g; unfold oTFields; exact GrOk.ok g
  | cons t ts ih =>
    intro n1 n2 st h g
    simp only [List.mem_cons, not_or] at n1 n2
    unfold oTFields
    split
    · exact GrOk.ok g
    · have : oTField F mem t st h = tField mem t st >>= fun r => ok (r, h) := by
        cases t <;> first | rfl | exact absurd rfl n1.1 | exact absurd rfl n2.1
      rw [this]
      refine GrOk.bind (hp := Prod.snd) (GrOk.pure fun r => GrOk.ok g) fun ⟨r, h⟩ g => ?_
      cases r with
      | go st =>
        dsimp only
        split
        · exact GrOk.abort
        · exact ih n1.2 n2.2 _ _ g
      | bad e u => exact GrOk.ok g

/-- **C115 (no refusal goes unnoticed: parsing).** If `wdns_parse_message` returns, with a message or an error code, then every request for memory it made
was granted. -/
theorem C115_parse_granted (F : Alloc) (mem : List UInt8) (len : Nat) (h h' : Heap) (r : Except Res Unit) (m : HMsg)
    (e : oParseMessage F mem len h = ok (r, m, h')) : ∀ n, h.next ≤ n → n < h'.next → F.fails n = false :=
  (gr_parseMessage (Gr.refl F h) mem len _ e).2

/-- **C115 (deserializing).** -/
theorem C115_deserialize_granted (F : Alloc) (le : Bool) (buf : List UInt8) (sz : Nat) (h h' : Heap) (r : Except Res Unit) (s : HRRset)
    (e : oDeserializeRrset F le buf sz h = ok (r, s, h')) : ∀ n, h.next ≤ n → n < h'.next → F.fails n = false :=
  (gr_deserializeRrset (Gr.refl F h) le buf sz _ e).2

/-- **C115 (reading names).** -/
theorem C115_name_granted (F : Alloc) (s : List UInt8) (downcase : Bool) (h h' : Heap) (r : Except Res (CName × Nat))
    (e : oStrToNameGen F s downcase h = ok (r, h')) : ∀ n, h.next ≤ n → n < h'.next → F.fails n = false :=
  (gr_strToNameGen (Gr.refl F h) s downcase _ e).2

/-- **C115 (reading rdata).** -/
theorem C115_text_granted (F : Alloc) (s : List UInt8) (ty cls : Nat) (h h' : Heap) (r : Except Res (List UInt8 × Nat))
    (e : oStrToRdata F s ty cls h = ok (r, h')) : ∀ n, h.next ≤ n → n < h'.next → F.fails n = false :=
  (gr_strToRdata (Gr.refl F h) s ty cls _ e).2

/-- **C115 (writing rdata, in part).**  Missing: types with base64 text or SvcParams. -/
theorem C115_render_granted_partial (F : Alloc) (mem : List UInt8) (rdlen ty cls : Nat) (h h' : Heap) (r : List UInt8 × Nat)
    (hp : ∀ d, recordDescr ty = some d → d.applies cls = true → .bytesB64 ∉ d.types ∧ .svcparams ∉ d.types)
    (e : oRdataToStr F mem rdlen ty cls h = ok (r, h')) : ∀ n, h.next ≤ n → n < h'.next → F.fails n = false := by
  have key : GrOk F h Prod.snd (oRdataToStr F mem rdlen ty cls h) := by
    unfold oRdataToStr
    refine GrOk.bind (gr_ubufNew (Gr.refl F h)) fun ⟨u, h1⟩ g => ?_
    refine GrOk.bind (hp := Prod.snd) ?_ fun ⟨t, h1⟩ g => ?_
    · unfold oRdataToUbuf
      dsimp only at g ⊢
      split
      · split
        · exact GrOk.abort
        · refine GrOk.pure fun _ => GrOk.pure fun _ => GrOk.pure fun _ => ?_
          exact GrOk.ok g
      · rename_i d hd
        split
        · rename_i ha
          refine GrOk.bind (gr_tFields mem _ (hp d hd ha).1 (hp d hd ha).2 _ _ g) fun ⟨r, h1⟩ g => ?_
          cases r with
          | go st => exact GrOk.ok g
          | bad o u => cases o <;> exact GrOk.ok g
        · exact GrOk.ok g
    · dsimp only at g ⊢
      split
      · exact GrOk.abort
      · refine GrOk.bind (gr_ubufDetach g _) fun ⟨b, u, h1⟩ g => ?_
        refine GrOk.bind (gr_ubufDestroy g _) fun h1 g => ?_
        exact GrOk.ok g
  exact (key _ e).2

/-- Refusing only the 10000th request does not disturb these calls; each made some. -/
example :
    (match oParseMessage ⟨fun n => n = 10000, fun _ => false⟩ sampleMsg sampleMsg.length ⟨0, []⟩ with
      | ok (.ok (), _, h') => decide (4 < h'.next)
      | _ => false) = true ∧
    (match oStrToRdata ⟨fun n => n = 10000, fun _ => false⟩ (ascii "1.2.3.4") 1 1 ⟨0, []⟩ with
      | ok (.ok (w, _), h') => decide (w = [1, 2, 3, 4] ∧ 2 < h'.next)
      | _ => false) = true := by
  decide +kernel

end Wdns
