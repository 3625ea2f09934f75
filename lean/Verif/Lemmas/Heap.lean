import Verif.Spec.Heap
import Verif.Lemmas.Message

/-!
# Lemmas about block ownership
-/

namespace Wdns
open Outcome

/-- Exactly the blocks of the list `X` are live (each once). -/
def Owns (h : Heap) (X : List Nat) : Prop :=
  h.live.Nodup ∧ (∀ b ∈ h.live, b < h.next) ∧ h.live.Perm X

theorem Owns.perm {h X Y} (hx : Owns h X) (p : X.Perm Y) : Owns h Y := ⟨hx.1, hx.2.1, hx.2.2.trans p⟩

/-- Permutations by counting. -/
macro "permc" : tactic =>
  `(tactic| (rw [List.perm_iff_count]; intro b;
             simp only [List.count_append, List.count_cons, List.count_nil, List.flatMap_append, List.flatMap_cons,
               List.flatMap_nil, List.append_nil, Option.toList_some, Option.toList_none] at *; omega))

theorem owns_malloc {h X} (hx : Owns h X) : Owns h.malloc.2 (h.malloc.1 :: X) := by
  obtain ⟨h1, h2, h3⟩ := hx
  refine ⟨?_, ?_, ?_⟩
  · simp only [Heap.malloc, List.nodup_cons]
    exact ⟨fun hm => absurd (h2 _ hm) (by omega), h1⟩
  · intro b hb
    simp only [Heap.malloc, List.mem_cons] at hb ⊢
    rcases hb with rfl | hb
    · omega
    · have := h2 b hb; omega
  · exact h3.cons _

theorem owns_free {h X Y} {p : Ptr} (hx : Owns h X) (hp : X.Perm (p.toList ++ Y)) :
    ∃ h', h.free p = ok h' ∧ Owns h' Y := by
  obtain ⟨h1, h2, h3⟩ := hx
  cases p with
  | none => exact ⟨h, rfl, h1, h2, h3.trans hp⟩
  | some b =>
    have hb : b ∈ h.live := (h3.trans hp).mem_iff.mpr (by simp)
    refine ⟨⟨h.next, h.live.erase b⟩, by simp [Heap.free, hb], h1.erase b, ?_, ?_⟩
    · intro x hx; exact h2 x (List.mem_of_mem_erase hx)
    · have := (h3.trans hp).erase b
      simpa using this

theorem owns_realloc {h X Y} {p : Ptr} (hx : Owns h X) (hp : X.Perm (p.toList ++ Y)) :
    ∃ b h', h.realloc p = ok (b, h') ∧ Owns h' (b :: Y) := by
  obtain ⟨h1, e, hh⟩ := owns_free hx hp
  exact ⟨_, _, by simp only [Heap.realloc, e, ok_bind], owns_malloc hh⟩

theorem owns_use {h X} {p : Ptr} (hx : Owns h X) (hp : p.isSome = true) (hm : ∀ b ∈ p.toList, b ∈ X) : h.use p = ok () := by
  cases p with
  | none => simp at hp
  | some b =>
    have : b ∈ h.live := hx.2.2.mem_iff.mpr (hm b (by simp))
    simp [Heap.use, this]

/-! ### reachable blocks -/

/-- Array pointers are there when there are elements. -/
def HRRset.Ok (s : HRRset) : Prop :=
  s.items.length = s.val.rdatas.length ∧ (s.items ≠ [] → s.rdatas.isSome = true) ∧ s.name.isSome = true
/-- Array pointers are there when there are elements. -/
def HArr.Ok (a : HArr) : Prop :=
  (a.rrs ≠ [] → a.rrsBlk.isSome = true) ∧ (a.rrsets ≠ [] → a.rrsetsBlk.isSome = true) ∧ ∀ s ∈ a.rrsets, s.Ok

/-! ### clearing -/

theorem hClearRr_ok {h X} {rr : HRR} (hx : Owns h (rr.blocks ++ X)) :
    ∃ h', hClearRr rr h = ok ({ rr with name := none, rdata := none }, h') ∧ Owns h' X := by
  obtain ⟨h1, e1, hh1⟩ := owns_free (p := rr.name) (Y := rr.rdata.toList ++ X) hx (by simp [HRR.blocks])
  obtain ⟨h2, e2, hh2⟩ := owns_free (p := rr.rdata) (Y := X) hh1 (List.Perm.refl _)
  exact ⟨h2, by simp [hClearRr, e1, e2], hh2⟩

theorem hFreeItems_ok {arr : Ptr} {X} : ∀ {items : List Ptr} {h}, (items ≠ [] → arr.isSome = true) →
    Owns h (items.flatMap Option.toList ++ (arr.toList ++ X)) →
    ∃ h', hFreeItems arr items h = ok h' ∧ Owns h' (arr.toList ++ X) := by
  intro items
  induction items with
  | nil => intro h _ hx; exact ⟨h, rfl, by simpa using hx⟩
  | cons p ps ih =>
    intro h ha hx
    have hu := owns_use hx (ha (by simp)) (by intro b hb; simp only [List.mem_append]; right; left; exact hb)
    obtain ⟨h1, e1, hh1⟩ := owns_free (p := p) (Y := ps.flatMap Option.toList ++ (arr.toList ++ X)) hx (by simp)
    obtain ⟨h2, e2, hh2⟩ := ih (fun _ => ha (by simp)) hh1
    exact ⟨h2, by simp [hFreeItems, hu, e1, e2], hh2⟩

theorem hClearRrset_ok {h X} {s : HRRset} (hs : s.Ok) (hx : Owns h (s.blocks ++ X)) :
    ∃ h', hClearRrset s h = ok (⟨{ s.val with rdatas := [] }, none, none, []⟩, h') ∧ Owns h' X := by
  obtain ⟨h1, e1, hh1⟩ := hFreeItems_ok (arr := s.rdatas) (items := s.items) (X := s.name.toList ++ X) hs.2.1
    (hx.perm (by unfold HRRset.blocks; permc))
  obtain ⟨h2, e2, hh2⟩ := owns_free (p := s.name) (Y := s.rdatas.toList ++ X) hh1 (by permc)
  obtain ⟨h3, e3, hh3⟩ := owns_free (p := s.rdatas) (Y := X) hh2 (List.Perm.refl _)
  exact ⟨h3, by simp [hClearRrset, e1, e2, e3], hh3⟩

theorem hClearRrs_ok {blk : Ptr} {X} : ∀ {rrs : List HRR} {h}, (rrs ≠ [] → blk.isSome = true) →
    Owns h (rrs.flatMap HRR.blocks ++ (blk.toList ++ X)) →
    ∃ h', hClearRrs blk rrs h = ok h' ∧ Owns h' (blk.toList ++ X) := by
  intro rrs
  induction rrs with
  | nil => intro h _ hx; exact ⟨h, rfl, by simpa using hx⟩
  | cons p ps ih =>
    intro h ha hx
    have hu := owns_use hx (ha (by simp)) (by intro b hb; simp only [List.mem_append]; right; left; exact hb)
    obtain ⟨h1, e1, hh1⟩ := hClearRr_ok (rr := p) (X := ps.flatMap HRR.blocks ++ (blk.toList ++ X))
      (hx.perm (by simp))
    obtain ⟨h2, e2, hh2⟩ := ih (fun _ => ha (by simp)) hh1
    exact ⟨h2, by simp [hClearRrs, hu, e1, e2], hh2⟩

theorem hClearRrsets_ok {blk : Ptr} {X} : ∀ {ss : List HRRset} {h}, (ss ≠ [] → blk.isSome = true) →
    (∀ s ∈ ss, s.Ok) → Owns h (ss.flatMap HRRset.blocks ++ (blk.toList ++ X)) →
    ∃ h', hClearRrsets blk ss h = ok h' ∧ Owns h' (blk.toList ++ X) := by
  intro ss
  induction ss with
  | nil => intro h _ _ hx; exact ⟨h, rfl, by simpa using hx⟩
  | cons p ps ih =>
    intro h ha hs hx
    have hu := owns_use hx (ha (by simp)) (by intro b hb; simp only [List.mem_append]; right; left; exact hb)
    obtain ⟨h1, e1, hh1⟩ := hClearRrset_ok (s := p) (X := ps.flatMap HRRset.blocks ++ (blk.toList ++ X))
      (hs p (by simp)) (hx.perm (by simp))
    obtain ⟨h2, e2, hh2⟩ := ih (fun _ => ha (by simp)) (fun s h => hs s (by simp [h])) hh1
    exact ⟨h2, by simp [hClearRrsets, hu, e1, e2], hh2⟩

theorem hClearArr_ok {h X} {a : HArr} (ha : a.Ok) (hx : Owns h (a.blocks ++ X)) :
    ∃ h', hClearArr a h = ok (.empty, h') ∧ Owns h' X := by
  obtain ⟨h1, e1, hh1⟩ := hClearRrs_ok (blk := a.rrsBlk) (rrs := a.rrs)
    (X := a.rrsetsBlk.toList ++ a.rrsets.flatMap HRRset.blocks ++ X) ha.1
    (hx.perm (by unfold HArr.blocks; permc))
  obtain ⟨h2, e2, hh2⟩ := owns_free (p := a.rrsBlk) (Y := a.rrsetsBlk.toList ++ a.rrsets.flatMap HRRset.blocks ++ X)
    hh1 (List.Perm.refl _)
  obtain ⟨h3, e3, hh3⟩ := hClearRrsets_ok (blk := a.rrsetsBlk) (ss := a.rrsets) (X := X) ha.2.1 ha.2.2
    (hh2.perm (by permc))
  obtain ⟨h4, e4, hh4⟩ := owns_free (p := a.rrsetsBlk) (Y := X) hh3 (List.Perm.refl _)
  exact ⟨h4, by simp [hClearArr, e1, e2, e3, e4], hh4⟩

theorem hClearArrs_ok {X} : ∀ {as : List HArr} {h}, (∀ a ∈ as, a.Ok) → Owns h (as.flatMap HArr.blocks ++ X) →
    ∃ h', hClearArrs as h = ok (as.map (fun _ => .empty), h') ∧ Owns h' X := by
  intro as
  induction as with
  | nil => intro h _ hx; exact ⟨h, rfl, by simpa using hx⟩
  | cons a as ih =>
    intro h ha hx
    obtain ⟨h1, e1, hh1⟩ := hClearArr_ok (a := a) (X := as.flatMap HArr.blocks ++ X) (ha a (by simp))
      (hx.perm (by simp))
    obtain ⟨h2, e2, hh2⟩ := ih (fun a h => ha a (by simp [h])) hh1
    exact ⟨h2, by simp [hClearArrs, e1, e2], hh2⟩

/-- The message object after clearing. -/
def HMsg.cleared (m : HMsg) : HMsg :=
  { m with hdr := { m.hdr with edns := { m.hdr.edns with present := false, options := none } },
           options := none, sections := m.sections.map fun _ => .empty }

theorem hClearMessage_ok {h X} {m : HMsg} (hm : ∀ a ∈ m.sections, a.Ok) (hx : Owns h (m.blocks ++ X)) :
    ∃ h', hClearMessage m h = ok (m.cleared, h') ∧ Owns h' X := by
  obtain ⟨h1, e1, hh1⟩ := owns_free (p := m.options) (Y := m.sections.flatMap HArr.blocks ++ X) hx
    (by simp [HMsg.blocks])
  obtain ⟨h2, e2, hh2⟩ := hClearArrs_ok hm hh1
  exact ⟨h2, by simp [hClearMessage, e1, e2, HMsg.cleared], hh2⟩

/-! ### simulation -/

/-- Two calls do the same, with results related by `R`. -/
def Sim {α β} (R : α → β → Prop) : Outcome α → Outcome β → Prop
  | ok a, ok b => R a b
  | err r, err r' => r = r'
  | ub, ub => True
  | hang, hang => True
  | abort, abort => True
  | _, _ => False

theorem Sim.bind {α β γ δ} {R : α → β → Prop} {S : γ → δ → Prop} {x : Outcome α} {y : Outcome β} {f : α → Outcome γ}
    {g : β → Outcome δ} (h : Sim R x y) (hf : ∀ a b, x = ok a → R a b → Sim S (f a) (g b)) : Sim S (x >>= f) (y >>= g) := by
  cases x <;> cases y <;> simp [Sim] at h ⊢
  · exact hf _ _ rfl h
  · exact h

/-- The same call first. -/
theorem Sim.same {α γ δ} {S : γ → δ → Prop} {x : Outcome α} {f : α → Outcome γ}
    {g : α → Outcome δ} (hf : ∀ a, x = ok a → Sim S (f a) (g a)) : Sim S (x >>= f) (x >>= g) := by
  cases x <;> simp [Sim]
  exact hf _ rfl

/-- A call whose failure is reported as `ok (.error e, h)` does the same as the call `o`. -/
def SimE {α β} (R : α → β → Heap → Prop) (E : Heap → Prop) : Outcome α → Outcome (Except Res β × Heap) → Prop
  | ok a, ok (.ok b, h) => R a b h
  | err r, ok (.error r', h) => r = r' ∧ E h
  | ub, ub => True
  | hang, hang => True
  | abort, abort => True
  | _, _ => False

theorem SimE.same {α β γ} {R : α → β → Heap → Prop} {E : Heap → Prop} {x : Outcome γ} {f : γ → Outcome α}
    {g : γ → Outcome (Except Res β × Heap)} (hne : ∀ e, x ≠ err e) (hf : ∀ a, x = ok a → SimE R E (f a) (g a)) :
    SimE R E (x >>= f) (x >>= g) := by
  cases x with
  | ok a => exact hf a rfl
  | err e => exact absurd rfl (hne e)
  | _ => trivial

theorem rd_ne_err (mem : List UInt8) (i : Nat) (e : Res) : rd mem i ≠ err e := by
  unfold rd; split <;> simp

theorem skipLoop_ne_err (mem : List UInt8) (eod : Nat) (e : Res) : ∀ fuel src, skipLoop mem eod fuel src ≠ err e := by
  intro fuel
  induction fuel with
  | zero => intro src; simp [skipLoop]
  | succ fuel ih =>
    intro src
    simp only [skipLoop]
    split
    · intro h
      cases hr : rd mem src with
      | ok c =>
        rw [hr] at h
        simp only [ok_bind] at h
        split at h
        · simp at h
        · split at h
          · simp at h
          · exact ih _ h
      | err e' => exact rd_ne_err _ _ _ hr
      | _ => rw [hr] at h; simp at h
    · simp

theorem skipName_ne_err (mem : List UInt8) (o eod : Nat) (e : Res) : skipName mem o eod ≠ err e := by
  unfold skipName
  cases h : skipLoop mem eod (eod + 2) o with
  | err e' => exact absurd h (skipLoop_ne_err _ _ _ _ _)
  | _ => simp

theorem hParseRdata_sim {mem : List UInt8} {p eop o rdlen ty cls : Nat} {h : Heap} {X} (hx : Owns h X) :
    SimE (fun r b h' => b.1 = r ∧ Owns h' (b.2 :: X)) (fun h' => Owns h' X)
      (parseRdata mem p eop o rdlen ty cls) (hParseRdata mem p eop o rdlen ty cls h) := by
  unfold hParseRdata
  have h1 := owns_malloc hx
  have h2 := owns_malloc h1
  simp only
  generalize h.malloc.1 = u at *
  generalize h.malloc.2 = h' at *
  generalize h'.malloc.1 = v at *
  generalize h'.malloc.2 = h'' at *
  cases hp : parseRdata mem p eop o rdlen ty cls with
  | ok r =>
    simp only
    have h3 := owns_malloc h2
    generalize h''.malloc.1 = d at *
    generalize h''.malloc.2 = h3' at *
    rw [owns_use h3 rfl (by simp)]
    obtain ⟨h4, e4, hh4⟩ := owns_free (p := some v) (Y := d :: u :: X) h3 (by permc)
    obtain ⟨h5, e5, hh5⟩ := owns_free (p := some u) (Y := d :: X) hh4 (by permc)
    simp only [ok_bind, e4, e5, SimE]
    exact ⟨trivial, hh5⟩
  | err e =>
    obtain ⟨h4, e4, hh4⟩ := owns_free (p := some v) (Y := u :: X) h2 (List.Perm.refl _)
    obtain ⟨h5, e5, hh5⟩ := owns_free (p := some u) (Y := X) hh4 (List.Perm.refl _)
    simp only [ok_bind, e4, e5, SimE]
    exact ⟨trivial, hh5⟩
  | _ => trivial

/-- The pointers of a freshly parsed RR. -/
def HRR.Fresh (sec : Nat) (r : HRR) : Prop :=
  r.name.isSome = true ∧ (sec = 0 → r.rdata = none) ∧ (sec ≠ 0 → r.rdata.isSome = true)

theorem hParseMessageRr_sim {sec : Nat} {mem : List UInt8} {p eop o : Nat} {h : Heap} {X} (hx : Owns h X) :
    SimE (fun r b h' => b.1.val = r.1 ∧ b.2 = r.2 ∧ b.1.Fresh sec ∧ Owns h' (b.1.blocks ++ X)) (fun h' => Owns h' X)
      (parseMessageRr sec mem p eop o) (hParseMessageRr sec mem p eop o h) := by
  unfold parseMessageRr hParseMessageRr
  cases hu : unpackName maxlenName mem p eop o with
  | ok v =>
    obtain ⟨nm, len⟩ := v
    simp only [ok_bind]
    have h1 := owns_malloc hx
    generalize h.malloc.1 = nb at *
    generalize h.malloc.2 = h' at *
    refine SimE.same (skipName_ne_err _ _ _) ?_
    rintro ⟨src, k⟩ _
    simp only
    have hfree : ∃ h2, h'.free (some nb) = ok h2 ∧ Owns h2 X := owns_free h1 (List.Perm.refl _)
    obtain ⟨h2, e2, hh2⟩ := hfree
    by_cases hb : src + 4 > eop ∨ (sec ≠ 0 ∧ src + 10 > eop)
    · simp only [hb, if_true, e2, ok_bind, SimE]
      exact ⟨trivial, hh2⟩
    · simp only [hb, if_false]
      refine SimE.same (rd_ne_err _ _) ?_; intro t0 _
      refine SimE.same (rd_ne_err _ _) ?_; intro t1 _
      refine SimE.same (rd_ne_err _ _) ?_; intro c0 _
      refine SimE.same (rd_ne_err _ _) ?_; intro c1 _
      by_cases h0 : sec = 0
      · simp only [h0, if_true, SimE]
        exact ⟨trivial, trivial, ⟨rfl, fun _ => rfl, fun h => absurd rfl h⟩, h1⟩
      · simp only [h0, if_false]
        iterate 4 (refine SimE.same (rd_ne_err _ _) ?_; intro _ _)
        refine SimE.same (rd_ne_err _ _) ?_; intro n0 _
        refine SimE.same (rd_ne_err _ _) ?_; intro n1 _
        split
        · simp only [e2, ok_bind, SimE]
          exact ⟨trivial, hh2⟩
        · have hs := hParseRdata_sim (mem := mem) (p := p) (eop := eop) (o := src + 10) (rdlen := be16 n0 n1)
            (ty := be16 t0 t1) (cls := be16 c0 c1) h1
          generalize parseRdata mem p eop (src + 10) (be16 n0 n1) (be16 t0 t1) (be16 c0 c1) = A at hs ⊢
          generalize hParseRdata mem p eop (src + 10) (be16 n0 n1) (be16 t0 t1) (be16 c0 c1) h' = B at hs ⊢
          cases A <;> rcases B with ⟨_ | ⟨rd', rb⟩, h3⟩ | _ | _ | _ | _ <;> simp only [SimE] at hs
          · simp only [ok_bind, SimE]
            obtain ⟨rfl, hs2⟩ := hs
            exact ⟨rfl, trivial, ⟨rfl, fun h => absurd h h0, fun _ => rfl⟩, hs2.perm (by simp only [HRR.blocks]; permc)⟩
          · obtain ⟨rfl, hs2⟩ := hs
            obtain ⟨h4, e4, hh4⟩ := owns_free (p := some nb) (Y := X) hs2 (List.Perm.refl _)
            simp only [ok_bind, err_bind, e4, SimE]
            exact ⟨trivial, hh4⟩
          all_goals trivial
  | err e => exact ⟨rfl, hx⟩
  | _ => trivial

/-- What the search loop of the insertion gives. -/
def FindRel (n : Nat) (Y : List Nat) : Option (List RRset) → Option (List HRRset × Heap) → Prop
  | none, none => True
  | some l, some (l', h') => l'.map HRRset.val = l ∧ l'.length = n ∧ (∀ s ∈ l', s.Ok) ∧ Owns h' (l'.flatMap HRRset.blocks ++ Y)
  | _, _ => False

theorem hInsertFind_sim {blk : Ptr} {rr : HRR} (hn : rr.name.isSome = true) : ∀ {L : List HRRset} {h Y}, (∀ s ∈ L, s.Ok) →
    (L ≠ [] → blk.isSome = true) → (∀ b ∈ blk.toList, b ∈ Y) → (∀ b ∈ rr.name.toList, b ∈ Y) →
    Owns h (rr.rdata.toList ++ L.flatMap HRRset.blocks ++ Y) →
    Sim (FindRel L.length Y) (insertFind rr.val (L.map HRRset.val)) (hInsertFind blk rr h L) := by
  intro L
  induction L with
  | nil => intro h Y _ _ _ _ _; simp [insertFind, hInsertFind, Sim, FindRel]
  | cons s rest ih =>
    intro h Y hok hblk hbY hnY hx
    have u1 := owns_use hx (hblk (by simp)) (by intro b hb; simp only [List.mem_append]; right; exact hbY b hb)
    have u2 := owns_use hx hn (by intro b hb; simp only [List.mem_append]; right; exact hnY b hb)
    have hso := hok s (by simp)
    have u3 := owns_use (p := s.name) hx hso.2.2
      (by intro b hb; simp only [List.mem_append, List.flatMap_cons, HRRset.blocks]; left; right; left; left; left; exact hb)
    simp only [insertFind, hInsertFind, List.map_cons, u1, u2, u3, ok_bind]
    refine Sim.same ?_
    intro m _
    cases m with
    | true =>
      simp only [if_true, hso.1]
      by_cases hlen : s.val.rdatas.length + 1 ≥ 65536
      · simp only [hlen, if_true, Sim]
      · simp only [hlen, if_false]
        cases rr.val.rdata with
        | none => trivial
        | some d =>
          simp only
          obtain ⟨ab, h1, e1, hh1⟩ := owns_realloc (p := s.rdatas)
            (Y := rr.rdata.toList ++ s.name.toList ++ s.items.flatMap Option.toList ++ rest.flatMap HRRset.blocks ++ Y) hx
            (by simp only [List.flatMap_cons, HRRset.blocks]; permc)
          simp only [e1, ok_bind, Sim, FindRel]
          refine ⟨by simp, by simp, ?_, hh1.perm ?_⟩
          · intro t ht
            rcases List.mem_cons.mp ht with rfl | ht
            · exact ⟨by simp [hso.1], fun _ => rfl, hso.2.2⟩
            · exact hok t (by simp [ht])
          · simp only [List.flatMap_cons, HRRset.blocks, List.flatMap_append, List.flatMap_nil]; permc
    | false =>
      simp only [Bool.false_eq_true, if_false]
      have h2 := ih (h := h) (Y := s.blocks ++ Y) (fun t ht => hok t (by simp [ht])) (fun _ => hblk (by simp))
        (fun b hb => by simp [hbY b hb]) (fun b hb => by simp [hnY b hb])
        (hx.perm (by simp only [List.flatMap_cons]; permc))
      refine Sim.bind h2 ?_
      intro a b _ hab
      rcases a with _ | l <;> rcases b with _ | ⟨l', h'⟩ <;> simp only [FindRel] at hab
      · trivial
      · obtain ⟨rfl, hne, hok', ho⟩ := hab
        refine ⟨by simp, by simp [hne], ?_, ho.perm ?_⟩
        · intro t ht
          rcases List.mem_cons.mp ht with rfl | ht
          · exact hso
          · exact hok' t ht
        · simp only [List.flatMap_cons]; permc

/-- The array without the pointers. -/
def HArr.erase (a : HArr) : RRsetArray := ⟨a.rrs.map HRR.val, a.rrsets.map HRRset.val⟩

theorem flatMap_reverse_perm {α β} (f : α → List β) (l : List α) : (l.reverse.flatMap f).Perm (l.flatMap f) :=
  (List.reverse_perm l).flatMap_right f

theorem copyRR_ok {rr : RR} {sec : Nat} {r : RR} (h : copyRR rr sec = ok r) (hs : sec ≠ 0) : rr.rdata.isSome = true := by
  unfold copyRR at h
  cases hr : rr.rdata with
  | some d => rfl
  | none =>
    exfalso
    simp only [hr, hs, ne_eq, not_false_eq_true, if_true] at h
    cases hn : rdN rr.name.data 0 rr.name.len <;> simp [hn] at h

theorem hInsertRr_sim {a : HArr} {rr : HRR} {sec : Nat} {h : Heap} {X} (ha : a.Ok) (hf : rr.Fresh sec)
    (hx : Owns h (rr.blocks ++ a.blocks ++ X)) :
    Sim (fun r b => b.1.erase = r ∧ b.1.Ok ∧ Owns b.2 (b.1.blocks ++ X)) (insertRr a.erase rr.val sec) (hInsertRr a rr sec h) := by
  unfold insertRr hInsertRr
  simp only [HArr.erase, List.length_map]
  by_cases hl : a.rrs.length + 1 ≥ 65536
  · simp only [hl, if_true, Sim]
  · simp only [hl, if_false]
    obtain ⟨rb, h1, e1, hh1⟩ := owns_realloc (p := a.rrsBlk)
      (Y := rr.blocks ++ (a.rrsetsBlk.toList ++ a.rrs.flatMap HRR.blocks ++ a.rrsets.flatMap HRRset.blocks) ++ X) hx
      (by simp only [HArr.blocks]; permc)
    have hh2 := owns_malloc hh1
    simp only [e1, ok_bind]
    generalize h1.malloc.1 = nb at *
    generalize h1.malloc.2 = h2 at *
    rw [owns_use hh2 hf.1 (by intro b hb; simp only [List.mem_cons, List.mem_append, HRR.blocks]; right; right; left; left; left; exact hb)]
    simp only [ok_bind]
    refine Sim.same ?_
    intro newRr hc
    by_cases hs : sec = 0
    · simp only [hs, ne_eq, not_true_eq_false, if_false, if_true, ok_bind]
      by_cases hl2 : a.rrsets.length + 1 ≥ 65536
      · simp only [hl2, if_true, Sim]
      · simp only [hl2, if_false]
        have hrd := hf.2.1 hs
        obtain ⟨sb, h3, e3, hh3⟩ := owns_realloc (p := a.rrsetsBlk)
          (Y := nb :: rb :: rr.blocks ++ (a.rrs.flatMap HRR.blocks ++ a.rrsets.flatMap HRRset.blocks) ++ X) hh2
          (by permc)
        simp only [e3, ok_bind, hClearRr, hrd, Heap.free, Sim]
        refine ⟨by simp, ⟨fun _ => rfl, fun _ => rfl, ?_⟩, hh3.perm ?_⟩
        · intro t ht
          rcases List.mem_append.mp ht with ht | ht
          · exact ha.2.2 t ht
          · rw [List.mem_singleton.mp ht]
            exact ⟨rfl, fun h => absurd rfl h, hf.1⟩
        · simp only [HArr.blocks, List.flatMap_append, List.flatMap_cons, List.flatMap_nil, HRR.blocks, HRRset.blocks, hrd]
          permc
    · have hrs := hf.2.2 hs
      have hrv := copyRR_ok hc hs
      simp only [hs, ne_eq, not_false_eq_true, if_true, if_false]
      rw [owns_use hh2 hrs (by intro b hb; simp only [List.mem_cons, List.mem_append, HRR.blocks]; right; right; left; left; right; exact hb)]
      simp only [ok_bind]
      have hh3 := owns_malloc hh2
      generalize h2.malloc.1 = db at *
      generalize h2.malloc.2 = h3 at *
      have hfind := hInsertFind_sim (blk := a.rrsetsBlk) hf.1 (L := a.rrsets.reverse) (h := h3)
        (Y := db :: nb :: rb :: rr.name.toList ++ a.rrsetsBlk.toList ++ a.rrs.flatMap HRR.blocks ++ X)
        (fun t ht => ha.2.2 t (List.mem_reverse.mp ht)) (fun hne => ha.2.1 (by simpa using hne))
        (by intro b hb; simp [hb])
        (by intro b hb; simp [hb])
        (hh3.perm (by
          have := flatMap_reverse_perm HRRset.blocks a.rrsets
          refine List.Perm.trans ?_ (((this.symm.append_left rr.rdata.toList)).append_right _)
          simp only [HRR.blocks]; permc))
      rw [List.map_reverse] at hfind
      refine Sim.bind hfind ?_
      intro x y _ hxy
      rcases x with _ | l <;> rcases y with _ | ⟨l', h4⟩ <;> simp only [FindRel] at hxy
      · by_cases hl2 : a.rrsets.length + 1 ≥ 65536
        · simp only [hl2, if_true, Sim]
        · simp only [hl2, if_false]
          obtain ⟨sb, h4, e4, hh4⟩ := owns_realloc (p := a.rrsetsBlk)
            (Y := db :: nb :: rb :: rr.blocks ++ (a.rrs.flatMap HRR.blocks ++ a.rrsets.flatMap HRRset.blocks) ++ X) hh3
            (by permc)
          have hh5 := owns_malloc hh4
          simp only [e4, ok_bind, hClearRr, Heap.free, Sim]
          generalize h4.malloc.1 = ab at *
          generalize h4.malloc.2 = h5 at *
          refine ⟨by simp, ⟨fun _ => rfl, fun _ => rfl, ?_⟩, hh5.perm ?_⟩
          · intro t ht
            rcases List.mem_append.mp ht with ht | ht
            · exact ha.2.2 t ht
            · rw [List.mem_singleton.mp ht]
              obtain ⟨d, hd⟩ := Option.isSome_iff_exists.mp hrv
              exact ⟨by simp [hd], fun h => rfl, hf.1⟩
          · simp only [HArr.blocks, List.flatMap_append, List.flatMap_cons, List.flatMap_nil, HRR.blocks, HRRset.blocks]
            permc
      · obtain ⟨hl', hne, hok', ho⟩ := hxy
        obtain ⟨h5, e5, hh5⟩ := owns_free (p := rr.name)
          (Y := db :: nb :: rb :: a.rrsetsBlk.toList ++ a.rrs.flatMap HRR.blocks ++ l'.flatMap HRRset.blocks ++ X) ho (by permc)
        have e6 : hClearRr { rr with rdata := none } h4 = ok ({ rr with name := none, rdata := none }, h5) := by
          simp only [hClearRr, e5, ok_bind]; rfl
        simp only [e6, ok_bind, Sim]
        refine ⟨by simp [← hl'], ⟨fun _ => rfl, fun _ => ?_, fun t ht => hok' t (List.mem_reverse.mp ht)⟩, hh5.perm ?_⟩
        · refine ha.2.1 ?_
          rintro h0
          rename_i hne2
          simp only [h0, List.reverse_nil, List.length_nil] at hne
          exact hne2 (by simp [List.eq_nil_of_length_eq_zero hne])
        · refine List.Perm.trans ?_ ((((flatMap_reverse_perm HRRset.blocks l').symm.append_left
            (rb :: a.rrsetsBlk.toList ++ (a.rrs ++ [(⟨newRr, some nb, some db⟩ : HRR)]).flatMap HRR.blocks))).append_right X |>.trans ?_)
          · simp only [List.flatMap_append, List.flatMap_cons, List.flatMap_nil, HRR.blocks]; permc
          · simp only [HArr.blocks]; permc

/-- The call has no failure return. -/
def NoErr {α} (x : Outcome α) : Prop := ∀ e, x ≠ err e

theorem NoErr.ok {α} (a : α) : NoErr (ok a) := by intro e h; cases h
theorem NoErr.bind {α β} {x : Outcome α} {f : α → Outcome β} (hx : NoErr x) (hf : ∀ a, NoErr (f a)) : NoErr (x >>= f) := by
  intro e h
  cases x with
  | ok a => exact hf a e h
  | err e' => exact hx e' rfl
  | _ => simp at h

theorem rdN_noErr (mem : List UInt8) (i n : Nat) : NoErr (rdN mem i n) := by
  intro e; unfold rdN; split <;> simp

theorem downcaseBytes_noErr : ∀ n l, NoErr (downcaseBytes n l) := by
  intro n
  induction n with
  | zero => intro l; exact NoErr.ok _
  | succ n ih =>
    intro l
    cases l with
    | nil => intro e h; cases h
    | cons b l => exact (ih l).bind fun _ => NoErr.ok _

theorem downcaseName_noErr (n : CName) : NoErr (downcaseName n) := (downcaseBytes_noErr _ _).bind fun _ => NoErr.ok _

theorem compare_noErr (rr : RR) (s : RRset) : NoErr (compareRrRrset rr s) := by
  unfold compareRrRrset
  split
  · exact (rdN_noErr _ _ _).bind fun _ => (downcaseName_noErr _).bind fun _ => (rdN_noErr _ _ _).bind fun _ =>
      (downcaseName_noErr _).bind fun _ => NoErr.ok _
  · exact NoErr.ok _

theorem insertFind_noErr (rr : RR) : ∀ L, NoErr (insertFind rr L) := by
  intro L
  induction L with
  | nil => exact NoErr.ok _
  | cons s rest ih =>
    refine (compare_noErr _ _).bind fun m => ?_
    split
    · split
      · intro e h; cases h
      · cases rr.rdata with
        | none => intro e h; cases h
        | some d => exact NoErr.ok _
    · exact ih.bind fun _ => NoErr.ok _

theorem copyRR_noErr (rr : RR) (sec : Nat) : NoErr (copyRR rr sec) := by
  refine (rdN_noErr _ _ _).bind fun _ => ?_
  simp only
  split
  · cases rr.rdata with
    | none => intro e h; cases h
    | some d => exact (rdN_noErr _ _ _).bind fun _ => NoErr.ok _
  · exact NoErr.ok _

theorem insertRr_noErr (a : RRsetArray) (rr : RR) (sec : Nat) : NoErr (insertRr a rr sec) := by
  unfold insertRr
  split
  · intro e h; cases h
  · refine (copyRR_noErr _ _).bind fun newRr => ?_
    simp only
    split
    · simp only [ok_bind]
      split
      · intro e h; cases h
      · exact NoErr.ok _
    · refine (insertFind_noErr _ _).bind fun found => ?_
      cases found with
      | some rs => exact NoErr.ok _
      | none =>
        simp only
        split
        · intro e h; cases h
        · exact NoErr.ok _

/-- The state without the pointers. -/
def HSecState.erase (st : HSecState) : SecState := ⟨st.p, st.arr.erase, st.hdr⟩

/-- The invariant of the loops of the parser. -/
def HSecState.Inv (st : HSecState) (X : List Nat) (h : Heap) : Prop :=
  st.arr.Ok ∧ (st.hdr.edns.present = false → st.options = none) ∧ Owns h (st.options.toList ++ st.arr.blocks ++ X)

/-- The results of the section loop. -/
def SimS (X : List Nat) : Outcome (SecState × Bool) → Outcome (Except Res Bool × HSecState × Heap) → Prop
  | ok (st, b), ok (.ok b', st', h) => b = b' ∧ st'.erase = st ∧ st'.Inv X h
  | err r, ok (.error r', st', h) => r = r' ∧ st'.Inv X h
  | ub, ub => True
  | hang, hang => True
  | abort, abort => True
  | _, _ => False

theorem hParseSection_sim {sec : Nat} {mem : List UInt8} {len : Nat} {X} : ∀ {n : Nat} {st : HSecState} {h : Heap}, st.Inv X h →
    SimS X (parseSection sec mem len n st.erase) (hParseSection sec mem len n st h) := by
  intro n
  induction n with
  | zero => intro st h hi; exact ⟨rfl, rfl, hi⟩
  | succ n ih =>
    intro st h hi
    obtain ⟨hok, hopt, ho⟩ := hi
    simp only [parseSection, hParseSection]
    have hep : st.erase.p = st.p := rfl
    have hea : st.erase.arr = st.arr.erase := rfl
    have heh : st.erase.hdr = st.hdr := rfl
    rw [hep, hea, heh]
    by_cases hp : st.p = len
    · simp only [hp, if_true, SimS]
      exact ⟨trivial, trivial, hok, hopt, ho⟩
    · simp only [hp, if_false]
      have hs := hParseMessageRr_sim (sec := sec) (mem := mem) (p := 0) (eop := len) (o := st.p) ho
      generalize parseMessageRr sec mem 0 len st.p = A at hs ⊢
      generalize hParseMessageRr sec mem 0 len st.p h = B at hs ⊢
      rcases A with ⟨r, rl⟩ | _ | _ | _ | _ <;> rcases B with ⟨_ | ⟨rr, rl'⟩, h3⟩ | _ | _ | _ | _ <;> simp only [SimE] at hs
      · obtain ⟨rfl, rfl, hfr, ho3⟩ := hs
        simp only [ok_bind]
        by_cases hc : rr.val.rrtype = 41 ∧ st.hdr.edns.present = false
        · simp only [hc, and_self, if_true]
          obtain ⟨h4, e4, hh4⟩ := hClearRr_ok (rr := { rr with rdata := none }) (X := rr.rdata.toList ++ st.arr.blocks ++ X)
            (h := h3) (ho3.perm (by rw [hopt hc.2]; simp only [HRR.blocks]; permc))
          simp only [hParseEdns, e4, ok_bind]
          exact ih (st := ⟨st.p + rl', st.arr, parseEdns st.hdr rr.val, rr.rdata⟩)
            ⟨hok, fun h => by simp [parseEdns] at h, hh4⟩
        · simp only [hc, if_false]
          have hi := hInsertRr_sim (a := st.arr) (rr := rr) (sec := sec) (h := h3) (X := st.options.toList ++ X) hok hfr
            (ho3.perm (by permc))
          have hne := insertRr_noErr st.arr.erase rr.val sec
          generalize insertRr st.arr.erase rr.val sec = A at hi hne ⊢
          generalize hInsertRr st.arr rr sec h3 = B at hi ⊢
          rcases A with _ | e | _ | _ | _ <;> rcases B with ⟨a', h5⟩ | _ | _ | _ | _ <;> simp only [Sim] at hi
          · obtain ⟨rfl, ha', ho'⟩ := hi
            exact ih (st := ⟨st.p + rl', a', st.hdr, st.options⟩) ⟨ha', hopt, ho'.perm (by permc)⟩
          · exact absurd rfl (hne _)
          all_goals trivial
      · obtain ⟨rfl, ho3⟩ := hs
        exact ⟨rfl, hok, hopt, ho3⟩
      all_goals trivial

/-- The results of the loop over the sections. -/
def SimM (X : List Nat) : Outcome (Hdr × List RRsetArray) → Outcome (Except Res Unit × Hdr × Ptr × List HArr × Heap) → Prop
  | ok (hdr, secs), ok (.ok (), hdr', opts, secs', h) =>
    hdr' = hdr ∧ secs'.map HArr.erase = secs ∧ (∀ a ∈ secs', a.Ok) ∧ (hdr.edns.present = false → opts = none) ∧
      Owns h (opts.toList ++ secs'.flatMap HArr.blocks ++ X)
  | err r, ok (.error r', _, opts, secs', h) =>
    r = r' ∧ (∀ a ∈ secs', a.Ok) ∧ Owns h (opts.toList ++ secs'.flatMap HArr.blocks ++ X)
  | ub, ub => True
  | hang, hang => True
  | abort, abort => True
  | _, _ => False

theorem HArr.empty_ok : HArr.empty.Ok := ⟨fun h => absurd rfl h, fun h => absurd rfl h, fun s hs => by cases hs⟩

theorem empties_blocks {α} (l : List α) : (l.map fun _ => HArr.empty).flatMap HArr.blocks = [] := by
  induction l with
  | nil => rfl
  | cons a l ih => simp only [List.map_cons, List.flatMap_cons, ih]; rfl

theorem hParseSections_sim {mem : List UInt8} {len : Nat} {X} : ∀ {todo : List (Nat × Nat)} {p : Nat} {hdr : Hdr} {opts : Ptr}
    {done : List HArr} {h : Heap}, (∀ a ∈ done, a.Ok) → (hdr.edns.present = false → opts = none) →
    Owns h (opts.toList ++ done.flatMap HArr.blocks ++ X) →
    SimM X (parseSections mem len todo p hdr (done.map HArr.erase)) (hParseSections mem len todo p hdr opts done h) := by
  intro todo
  induction todo with
  | nil =>
    intro p hdr opts done h h1 h2 h3
    exact ⟨rfl, rfl, h1, h2, h3⟩
  | cons t rest ih =>
    obtain ⟨sec, count⟩ := t
    intro p hdr opts done h h1 h2 h3
    simp only [parseSections, hParseSections]
    have hs := hParseSection_sim (sec := sec) (mem := mem) (len := len) (X := done.flatMap HArr.blocks ++ X) (n := count)
      (st := ⟨p, .empty, hdr, opts⟩) (h := h) ⟨HArr.empty_ok, h2, h3.perm (by simp only [HArr.empty, HArr.blocks]; permc)⟩
    have he : (HSecState.erase ⟨p, .empty, hdr, opts⟩) = ⟨p, .empty, hdr⟩ := rfl
    rw [he] at hs
    generalize parseSection sec mem len count ⟨p, .empty, hdr⟩ = A at hs ⊢
    generalize hParseSection sec mem len count ⟨p, .empty, hdr, opts⟩ h = B at hs ⊢
    rcases A with ⟨st, b⟩ | _ | _ | _ | _ <;> rcases B with ⟨_ | b', st', h'⟩ | _ | _ | _ | _ <;> simp only [SimS] at hs
    · obtain ⟨rfl, rfl, ha, hb, hc⟩ := hs
      cases b with
      | true =>
        simp only [ok_bind, if_true, SimM]
        refine ⟨rfl, ?_, ?_, hb, hc.perm ?_⟩
        · simp only [List.map_append, List.map_cons, List.map_nil, List.map_map]; rfl
        · intro a ham
          simp only [List.mem_append, List.mem_cons, List.not_mem_nil, or_false, List.mem_map] at ham
          rcases ham with (ham | rfl) | ⟨_, _, rfl⟩
          · exact h1 a ham
          · exact ha
          · exact HArr.empty_ok
        · simp only [List.flatMap_append, empties_blocks]; permc
      | false =>
        simp only [ok_bind, Bool.false_eq_true, if_false]
        have := ih (p := st'.p) (hdr := st'.hdr) (opts := st'.options) (done := done ++ [st'.arr]) (h := h')
          (by intro a ham
              simp only [List.mem_append, List.mem_cons, List.not_mem_nil, or_false] at ham
              rcases ham with ham | rfl
              · exact h1 a ham
              · exact ha) hb (hc.perm (by permc))
        rw [List.map_append] at this
        exact this
    · obtain ⟨rfl, ha, hb, hc⟩ := hs
      simp only [ok_bind, err_bind, SimM]
      refine ⟨trivial, ?_, hc.perm ?_⟩
      · intro a ham
        simp only [List.mem_append, List.mem_cons, List.not_mem_nil, or_false, List.mem_map] at ham
        rcases ham with (ham | rfl) | ⟨_, _, rfl⟩
        · exact h1 a ham
        · exact ha
        · exact HArr.empty_ok
      · simp only [List.flatMap_append, empties_blocks]; permc
    all_goals trivial

/-- What the caller sees of `wdns_parse_message`. -/
def SimT (X : List Nat) : Outcome Message → Outcome (Except Res Unit × HMsg × Heap) → Prop
  | ok m, ok (.ok (), m', h) => m'.erase = m ∧ (∀ a ∈ m'.sections, a.Ok) ∧ Owns h (m'.blocks ++ X)
  | err r, ok (.error r', m', h) => r = r' ∧ m'.options = none ∧ (∀ a ∈ m'.sections, a = .empty) ∧ Owns h X
  | ub, ub => True
  | hang, hang => True
  | abort, abort => True
  | _, _ => False

theorem hParseMessage_sim {mem : List UInt8} {len : Nat} {X} {h : Heap} (hx : Owns h X) :
    SimT X (parseMessage mem len) (hParseMessage mem len h) := by
  unfold parseMessage hParseMessage
  by_cases hl : len < 12
  · simp only [hl, if_true, SimT]
    exact ⟨trivial, rfl, by simp [HMsg.zero], hx⟩
  · simp only [hl, if_false]
    have hne := rdN_noErr mem 0 12
    cases hr : rdN mem 0 12 with
    | err e => exact absurd hr (hne e)
    | ok hd =>
      simp only [ok_bind]
      have hs := hParseSections_sim (mem := mem) (len := len) (X := X)
        (todo := [(0, be16 (hd.getD 4 0) (hd.getD (4 + 1) 0)), (1, be16 (hd.getD 6 0) (hd.getD (6 + 1) 0)),
          (2, be16 (hd.getD 8 0) (hd.getD (8 + 1) 0)), (3, be16 (hd.getD 10 0) (hd.getD (10 + 1) 0))])
        (p := 12) (hdr := ⟨.zero, be16 (hd.getD 2 0) (hd.getD (2 + 1) 0) % 16⟩) (opts := none) (done := []) (h := h)
        (by simp) (fun _ => rfl) (by simpa using hx)
      simp only [List.map_nil] at hs
      generalize parseSections mem len _ _ _ _ = A at hs ⊢
      generalize hParseSections mem len _ _ _ _ _ _ = B at hs ⊢
      rcases A with ⟨hdr, secs⟩ | _ | _ | _ | _ <;> rcases B with ⟨_ | b', hdr', opts, secs', h'⟩ | _ | _ | _ | _ <;> simp only [SimM] at hs
      · obtain ⟨rfl, rfl, ha, hb, hc⟩ := hs
        exact ⟨rfl, ha, hc⟩
      · obtain ⟨rfl, ha, hc⟩ := hs
        obtain ⟨h2, e2, hh2⟩ := hClearMessage_ok (X := X)
          (m := ⟨be16 (hd.getD 0 0) (hd.getD (0 + 1) 0), be16 (hd.getD 2 0) (hd.getD (2 + 1) 0), hdr', opts, secs'⟩) ha hc
        simp only [ok_bind, err_bind, e2, SimT]
        refine ⟨trivial, rfl, ?_, hh2⟩
        intro a ham
        simp only [HMsg.cleared, List.mem_map] at ham
        obtain ⟨_, _, rfl⟩ := ham
        rfl
      all_goals trivial
    | _ => trivial

/-- The results of deserialization. -/
def SimD (X : List Nat) : Outcome RRset → Outcome (Except Res Unit × HRRset × Heap) → Prop
  | ok m, ok (.ok (), s, h) => s.val = m ∧ s.Ok ∧ Owns h (s.blocks ++ X)
  | err r, ok (.error r', s, h) => r = r' ∧ s.blocks = [] ∧ s.items = [] ∧ s.val.rdatas = [] ∧ Owns h X
  | ub, ub => True
  | hang, hang => True
  | abort, abort => True
  | _, _ => False

theorem hClearRrset_ok' {h X} {s : HRRset} (hs : s.items ≠ [] → s.rdatas.isSome = true) (hx : Owns h (s.blocks ++ X)) :
    ∃ h', hClearRrset s h = ok (⟨{ s.val with rdatas := [] }, none, none, []⟩, h') ∧ Owns h' X := by
  obtain ⟨h1, e1, hh1⟩ := hFreeItems_ok (arr := s.rdatas) (items := s.items) (X := s.name.toList ++ X) hs
    (hx.perm (by unfold HRRset.blocks; permc))
  obtain ⟨h2, e2, hh2⟩ := owns_free (p := s.name) (Y := s.rdatas.toList ++ X) hh1 (by permc)
  obtain ⟨h3, e3, hh3⟩ := owns_free (p := s.rdatas) (Y := X) hh2 (List.Perm.refl _)
  exact ⟨h3, by simp [hClearRrset, e1, e2, e3], hh3⟩

theorem hCopyBytes_sim {s : HRRset} {buf : List UInt8} {sz off n : Nat} {h : Heap} {X} {f : List UInt8 → Outcome RRset}
    {k : List UInt8 → Outcome (Except Res Unit × HRRset × Heap)} (hs : s.items ≠ [] → s.rdatas.isSome = true)
    (hx : Owns h (s.blocks ++ X)) (hk : ∀ b, SimD X (f b) (k b)) :
    SimD X (copyBytes buf sz off n >>= f) (hCopyBytes s buf sz off n h k) := by
  unfold copyBytes hCopyBytes
  by_cases hc : off + n > sz
  · obtain ⟨h', e, hh⟩ := hClearRrset_ok' hs hx
    simp only [hc, if_true, e, ok_bind, err_bind, SimD]
    exact ⟨trivial, rfl, trivial, trivial, hh⟩
  · simp only [hc, if_false]
    have := rdN_noErr buf off n
    cases hr : rdN buf off n with
    | ok b => exact hk b
    | err e => exact absurd hr (this e)
    | _ => trivial

theorem replicate_none_blocks (n : Nat) : (List.replicate n (none : Ptr)).flatMap Option.toList = [] := by
  induction n with
  | zero => rfl
  | succ n ih => simp [List.replicate_succ]

theorem bind_assoc' {α β γ} (x : Outcome α) (f : α → Outcome β) (g : β → Outcome γ) :
    (x >>= f) >>= g = x >>= fun a => f a >>= g := by cases x <;> rfl

theorem hDeserializeRdatas_sim {le : Bool} {buf : List UInt8} {sz : Nat} {s : HRRset} {X} (hn : s.name.isSome = true)
    (ha : s.rdatas.isSome = true) (hv : s.val.rdatas = []) : ∀ {n off : Nat} {acc : List CRdata} {accp : List Ptr} {h : Heap},
    acc.length = accp.length → Owns h (({ s with items := accp } : HRRset).blocks ++ X) →
    SimD X (deserializeRdatas le buf sz n off acc >>= fun rds => ok { s.val with rdatas := rds })
      (hDeserializeRdatas le buf sz s n off acc accp h) := by
  intro n
  induction n with
  | zero =>
    intro off acc accp h hl hx
    exact ⟨rfl, ⟨hl.symm, fun _ => ha, hn⟩, hx⟩
  | succ n ih =>
    intro off acc accp h hl hx
    simp only [deserializeRdatas, hDeserializeRdatas, bind_assoc']
    refine hCopyBytes_sim (fun _ => ha) (hx.perm ?_) ?_
    · simp only [HRRset.blocks, List.flatMap_append, replicate_none_blocks, List.append_nil]; exact List.Perm.refl _
    intro b
    rw [owns_use hx ha (by intro b hb; simp [HRRset.blocks, hb])]
    simp only [ok_bind]
    have hh := owns_malloc hx
    generalize h.malloc.1 = d at *
    generalize h.malloc.2 = h' at *
    refine hCopyBytes_sim (fun _ => ha) (hh.perm ?_) ?_
    · simp only [HRRset.blocks, List.flatMap_append, replicate_none_blocks]; permc
    intro by_
    refine ih (by simp [hl]) (hh.perm ?_)
    simp only [HRRset.blocks, List.flatMap_append]; permc

theorem hDeserializeRrset_sim {le : Bool} {buf : List UInt8} {sz : Nat} {h : Heap} {X} (hx : Owns h X) :
    SimD X (deserializeRrset le buf sz) (hDeserializeRrset le buf sz h) := by
  unfold deserializeRrset hDeserializeRrset
  refine hCopyBytes_sim (fun h => absurd rfl h) hx ?_
  intro b
  have h1 := owns_malloc hx
  simp only
  generalize h.malloc.1 = nb at *
  generalize h.malloc.2 = h' at *
  iterate 5
    refine hCopyBytes_sim (fun h => absurd rfl h) h1 ?_
    intro _
  have h2 := owns_malloc h1
  generalize h'.malloc.1 = ab at *
  generalize h'.malloc.2 = h'' at *
  refine hDeserializeRdatas_sim (s := ⟨⟨_, _, _, ⟨_, _⟩, []⟩, some nb, some ab, []⟩) rfl rfl rfl rfl (h2.perm ?_)
  simp only [HRRset.blocks]; permc

end Wdns
