import Verif.Spec.Zonefile
import Verif.Lemmas.Heap
import Verif.Lemmas.Ubuf

/-!
# C103: the zone file reader
-/

namespace Wdns
open Outcome Wdns.Spec

theorem zoneRecs_cons_none {i : ZItem} {l : List ZItem} (h : NoRecord i) : zoneRecs (i :: l) = zoneRecs l := by
  cases i <;> first | rfl | exact absurd h id

/-- One call of the parser on a line without a record. -/
theorem zNext_skip {z : ZFile} {h : Heap} {X : List Nat} {i : ZItem} {rest : List ZItem} (hr : z.rest = i :: rest) (hi : NoRecord i)
    (ho : Owns h (ZFile.blocks z ++ X)) :
    ∃ o h', zNext z h = ok (.skip, { z with rest := rest, origin := o }, h') ∧
      Owns h' (ZFile.blocks { z with rest := rest, origin := o } ++ X) ∧ (i ≠ .origin → o = z.origin) ∧ (i = .origin → o.isSome = true) := by
  unfold zNext
  rw [hr]
  cases i with
  | rr r => exact absurd hi id
  | bad => exact absurd hi id
  | blank => exact ⟨z.origin, h, rfl, ho, fun _ => rfl, fun e => by cases e⟩
  | ttl => exact ⟨z.origin, h, rfl, ho, fun _ => rfl, fun e => by cases e⟩
  | origin =>
    obtain ⟨h1, e1, o1⟩ := owns_free (p := z.origin) (Y := [z.self, z.fp] ++ z.domain.toList ++ z.prev.toList ++ (z.soa.map (·.2)).toList ++ X) ho
      (by unfold ZFile.blocks; permc)
    refine ⟨some h1.malloc.1, h1.malloc.2, ?_, (owns_malloc o1).perm ?_, fun h => absurd rfl h, fun _ => rfl⟩
    · simp only [e1, ok_bind]
    · unfold ZFile.blocks; permc

/-- One call of the parser on a record. -/
theorem zNext_record {z : ZFile} {h : Heap} {X : List Nat} {r : ZRec} {rest : List ZItem} (hr : z.rest = .rr r :: rest)
    (ho : Owns h (ZFile.blocks z ++ X)) :
    ∃ b p h', zNext z h = ok (.record r b, { z with rest := rest, prev := some p }, h') ∧
      Owns h' (ZFile.blocks { z with rest := rest, prev := some p } ++ (b :: X)) := by
  unfold zNext
  rw [hr]
  obtain ⟨h1, e1, o1⟩ := owns_free (p := z.prev)
    (Y := h.malloc.1 :: ([z.self, z.fp] ++ z.domain.toList ++ z.origin.toList ++ (z.soa.map (·.2)).toList ++ X)) (owns_malloc ho)
    (by unfold ZFile.blocks; permc)
  refine ⟨h.malloc.1, h1.malloc.1, h1.malloc.2, ?_, (owns_malloc o1).perm ?_⟩
  · simp only [e1, ok_bind]
  · unfold ZFile.blocks; permc

theorem zDestroy_ok {z : ZFile} {h : Heap} {X : List Nat} (ho : Owns h (ZFile.blocks z ++ X)) : ∃ h', zDestroy z h = ok h' ∧ Owns h' X := by
  unfold zDestroy
  obtain ⟨h1, e1, o1⟩ := owns_free (p := some z.fp) (Y := [z.self] ++ z.domain.toList ++ z.origin.toList ++ z.prev.toList ++ (z.soa.map (·.2)).toList ++ X) ho
    (by unfold ZFile.blocks; permc)
  obtain ⟨h2, e2, o2⟩ := owns_free (p := z.origin) (Y := [z.self] ++ z.domain.toList ++ z.prev.toList ++ (z.soa.map (·.2)).toList ++ X) o1 (by permc)
  obtain ⟨h3, e3, o3⟩ := owns_free (p := z.prev) (Y := [z.self] ++ z.domain.toList ++ (z.soa.map (·.2)).toList ++ X) o2 (by permc)
  obtain ⟨h4, e4, o4⟩ := owns_free (p := z.domain) (Y := [z.self] ++ (z.soa.map (·.2)).toList ++ X) o3 (by permc)
  obtain ⟨h5, e5, o5⟩ := owns_free (p := z.soa.map (·.2)) (Y := [z.self] ++ X) o4 (by permc)
  obtain ⟨h6, e6, o6⟩ := owns_free (p := some z.self) (Y := X) o5 (List.Perm.refl _)
  exact ⟨h6, by simp only [e1, e2, e3, e4, e5, e6, ok_bind], o6⟩

/-! ## opening -/

/-- The object between the lines in front of the first record. -/
structure Fresh (z : ZFile) : Prop where
  soa : z.soa = none
  domain : z.domain = none
  eof : z.eof = false
  valid : z.valid = true

/-- The loop in front of the first record: one block for the last `$ORIGIN`. -/
theorem zReadSoa_pre {X : List Nat} : ∀ (pre : List ZItem) {fuel : Nat} {z : ZFile} {h : Heap} {rest : List ZItem}, (∀ i ∈ pre, NoRecord i) →
    z.rest = pre ++ rest → Owns h (ZFile.blocks z ++ X) → Fresh z →
    ∃ z' h', zReadSoa (pre.length + fuel) z h = zReadSoa fuel z' h' ∧ z'.rest = rest ∧ Owns h' (ZFile.blocks z' ++ X) ∧ Fresh z' ∧
      (.origin ∉ pre → z'.origin = z.origin) ∧ (.origin ∈ pre → z'.origin.isSome = true) ∧ z'.self = z.self ∧ z'.fp = z.fp ∧ z'.count = z.count ∧ z'.prev = z.prev := by
  intro pre
  induction pre with
  | nil => intro fuel z h rest _ hr ho hf; exact ⟨z, h, by simp, hr, ho, hf, fun _ => rfl, fun h => by simp at h, rfl, rfl, rfl, rfl⟩
  | cons i pre ih =>
    intro fuel z h rest hp hr ho hf
    obtain ⟨o, h1, e1, o1, c1, c1'⟩ := zNext_skip (i := i) (rest := pre ++ rest) hr (hp i (by simp)) ho
    obtain ⟨z', h', e2, r2, o2, f2, c2, c2', s2, p2, n2, v2⟩ := ih (fuel := fuel) (z := { z with rest := pre ++ rest, origin := o }) (h := h1) (rest := rest)
      (fun x hx => hp x (List.mem_cons_of_mem _ hx)) rfl o1 ⟨hf.soa, hf.domain, hf.eof, hf.valid⟩
    refine ⟨z', h', ?_, r2, o2, f2, ?_, ?_, s2, p2, n2, v2⟩
    · rw [List.length_cons, show pre.length + 1 + fuel = (pre.length + fuel) + 1 by omega, zReadSoa, e1, ok_bind]
      exact e2
    · intro hn
      simp only [List.mem_cons, not_or] at hn
      rw [c2 hn.2, c1 (fun e => hn.1 e.symm)]
    · intro hm
      by_cases hp' : ZItem.origin ∈ pre
      · exact c2' hp'
      · rw [c2 hp']
        rcases List.mem_cons.mp hm with e | e
        · exact c1' e.symm
        · exact absurd e hp'

theorem zReadSoa_end {z : ZFile} (hr : z.rest = []) : ∀ (fuel : Nat) (h : Heap), zReadSoa fuel z h = hang := by
  intro fuel
  induction fuel with
  | zero => intro h; rfl
  | succ fuel ih =>
    intro h
    rw [zReadSoa]
    have : zNext z h = ok (.skip, z, h) := by unfold zNext; rw [hr]
    rw [this, ok_bind]
    exact ih h

/-- How the content of the file is obtained: by `zcat` if the name ends in `.gz`. -/
def zContent (fopen popen : List UInt8 → Option (List ZItem)) (fname : List UInt8) : Option (List ZItem) :=
  if ascii ".gz" <:+ fname then popen (ascii "zcat " ++ fname) else fopen fname

theorem zIsGz_iff (fname : List UInt8) : zIsGz fname = true ↔ ascii ".gz" <:+ fname := by
  constructor
  · intro h
    simp only [zIsGz, ge_iff_le, Bool.and_eq_true, decide_eq_true_eq, beq_iff_eq] at h
    obtain ⟨⟨⟨h1, h2⟩, h3⟩, h4⟩ := h
    refine ⟨fname.take (fname.length - 3), ?_⟩
    conv => rhs; rw [← List.take_append_drop (fname.length - 3) fname]
    congr 1
    apply List.ext_getElem?
    intro i
    rw [List.getElem?_drop]
    have hl : ∀ j (hj : j < fname.length), fname[j]? = some (fname.getD j 0) := by
      intro j hj
      rw [List.getD_eq_getElem?_getD, List.getElem?_eq_getElem hj]; rfl
    match i with
    | 0 => rw [Nat.add_zero, hl _ (by omega), h2]; rfl
    | 1 => rw [show fname.length - 3 + 1 = fname.length - 2 by omega, hl _ (by omega), h3]; rfl
    | 2 => rw [show fname.length - 3 + 2 = fname.length - 1 by omega, hl _ (by omega), h4]; rfl
    | i + 3 =>
      rw [List.getElem?_eq_none (by show 3 ≤ i + 3; omega), List.getElem?_eq_none (by omega)]
  · rintro ⟨p, rfl⟩
    have hl : (ascii ".gz").length = 3 := rfl
    simp only [zIsGz, List.length_append, hl, Nat.add_sub_cancel, List.getD_eq_getElem?_getD]
    rw [List.getElem?_append_right (by omega), List.getElem?_append_right (by omega), List.getElem?_append_right (by omega)]
    rw [show p.length - p.length = 0 by omega, show p.length + 3 - 2 - p.length = 1 by omega, show p.length + 3 - 1 - p.length = 2 by omega]
    simp [ascii]

/-- The buffer for a compressed file holds the command. -/
theorem zCommand_spec {fname : List UInt8} (hn : (0 : UInt8) ∉ fname) : ∃ u, zCommand fname = ok u ∧ UHolds u (ascii "zcat " ++ fname ++ [0]) := by
  obtain ⟨u1, e1, i1⟩ := Ubuf.addCstr_spec (Ubuf.inv_init 64) (ascii "zcat ")
  obtain ⟨u2, e2, i2⟩ := Ubuf.addCstr_spec i1 fname
  obtain ⟨u3, e3, i3⟩ := Ubuf.cterm_spec i2
  have hs : stripLast 0 (stripLast 0 [] ++ ascii "zcat ") = ascii "zcat " := by decide
  rw [hs] at i3
  rw [if_neg (by
    intro h
    have := List.mem_of_getLast? h
    rw [List.mem_append] at this
    rcases this with h | h
    · revert h; decide
    · exact hn h)] at i3
  exact ⟨u3, by unfold zCommand; rw [e1, ok_bind, e2, ok_bind, e3], i3.1⟩

/-- `popen` looks at the command up to the zero octet. -/
def SeesCommand (popen : Ubuf → Option (List ZItem)) (run : List UInt8 → Option (List ZItem)) : Prop :=
  ∀ u s, (0 : UInt8) ∉ s → UHolds u (s ++ [0]) → popen u = run s

theorem zInit_eq {fopen run : List UInt8 → Option (List ZItem)} {popen : Ubuf → Option (List ZItem)} (hp : SeesCommand popen run) {fname : List UInt8}
    (hn : (0 : UInt8) ∉ fname) (h : Heap) :
    zInit fopen popen fname h =
      match zContent fopen run fname with
      | none => ok (none, h.malloc.2)
      | some items =>
        (zReadSoa (items.length + 1) ⟨h.malloc.1, h.malloc.2.malloc.1, false, zIsGz fname, true, none, [], none, none, none, 0, items⟩ h.malloc.2.malloc.2) >>=
          fun x => if x.1 then ok (some x.2.1, x.2.2) else (zDestroy x.2.1 x.2.2 >>= fun h => ok (none, h)) := by
  obtain ⟨u, e, hu⟩ := zCommand_spec hn
  have hcmd : (0 : UInt8) ∉ ascii "zcat " ++ fname := by
    rw [List.mem_append]
    rintro (h | h)
    · revert h; decide
    · exact hn h
  unfold zInit zContent
  dsimp only
  by_cases hg : ascii ".gz" <:+ fname
  · rw [if_pos hg, (zIsGz_iff fname).mpr hg, if_pos rfl, e, ok_bind, ok_bind, hp u _ hcmd hu]
    rfl
  · rw [if_neg hg, if_neg (fun h => hg ((zIsGz_iff fname).mp h)), ok_bind]
    rfl

/-- The object in front of the first read. -/
theorem start_owns {h : Heap} {X : List Nat} (ho : Owns h X) (gz : Bool) (items : List ZItem) :
    Owns h.malloc.2.malloc.2 (ZFile.blocks ⟨h.malloc.1, h.malloc.2.malloc.1, false, gz, true, none, [], none, none, none, 0, items⟩ ++ X) := by
  refine (owns_malloc (owns_malloc ho)).perm ?_
  unfold ZFile.blocks
  simp only [Option.map_none]
  permc

/-- **C103.** A file that has a SOA record in front of all others, after empty lines and directives only, is opened: the domain is the owner of the SOA record, one
record is counted, and the serial number is available.  Every block belongs to the object, except that an origin set by a directive in front of the
SOA record is lost. -/
theorem C103_init (fopen run : List UInt8 → Option (List ZItem)) (popen : Ubuf → Option (List ZItem)) (fname : List UInt8) (h : Heap) (X : List Nat)
    (pre body : List ZItem) (s : ZRec) (hp : SeesCommand popen run) (hn : (0 : UInt8) ∉ fname) (hx : LiveAre h X)
    (hc : zContent fopen run fname = some (pre ++ .rr s :: body)) (hpre : ∀ i ∈ pre, NoRecord i) (hs : s.soa = true) :
    ∃ z h' lost, zInit fopen popen fname h = ok (some z, h') ∧ z.domainName = s.owner ∧ z.count = 1 ∧ zSerial z = ok s.serial ∧
      z.rest = body ∧ LiveAre h' (ZFile.blocks z ++ lost ++ X) ∧ lost.length = (if .origin ∈ pre then 1 else 0) := by
  rw [zInit_eq hp hn, hc]
  dsimp only
  have h0 := start_owns hx (zIsGz fname) (pre ++ .rr s :: body)
  obtain ⟨z, h', e, hr, ho, hf, hor, hor', -, -, -, -⟩ := zReadSoa_pre pre (fuel := body.length + 1 + 1) (rest := .rr s :: body) hpre rfl h0 ⟨rfl, rfl, rfl, rfl⟩
  rw [show (pre ++ ZItem.rr s :: body).length + 1 = pre.length + (body.length + 1 + 1) by simp; omega, e, zReadSoa]
  obtain ⟨b, p, h2, e2, o2⟩ := zNext_record hr ho
  rw [e2, ok_bind]
  dsimp only
  rw [if_neg (by simp [hs]), ok_bind]
  dsimp only
  refine ⟨_, _, z.origin.toList, rfl, rfl, rfl, rfl, rfl, ?_, ?_⟩
  · refine (owns_malloc (owns_malloc o2)).perm ?_
    unfold ZFile.blocks
    rw [hf.soa, hf.domain]
    simp only [Option.map_none, Option.map_some]
    permc
  · by_cases ho' : ZItem.origin ∈ pre
    · rw [if_pos ho']
      obtain ⟨x, hx⟩ := Option.isSome_iff_exists.mp (hor' ho')
      rw [hx]
      rfl
    · rw [if_neg ho', hor ho']
      rfl

/-- **C103.** A file whose first record is no SOA record, or in which something that cannot be read comes before any record, is not opened; nothing is left
allocated. -/
theorem C103_init_rejects (fopen run : List UInt8 → Option (List ZItem)) (popen : Ubuf → Option (List ZItem)) (fname : List UInt8) (h : Heap) (X : List Nat)
    (pre body : List ZItem) (i : ZItem) (hp : SeesCommand popen run) (hn : (0 : UInt8) ∉ fname) (hx : LiveAre h X)
    (hc : zContent fopen run fname = some (pre ++ i :: body)) (hpre : ∀ i ∈ pre, NoRecord i) (hi : i = .bad ∨ ∃ r, i = .rr r ∧ r.soa = false) :
    ∃ h', zInit fopen popen fname h = ok (none, h') ∧ LiveAre h' X := by
  rw [zInit_eq hp hn, hc]
  dsimp only
  have h0 := start_owns hx (zIsGz fname) (pre ++ i :: body)
  obtain ⟨z, h', e, hr, ho, hf, -, -, -, -, -, -⟩ := zReadSoa_pre pre (fuel := body.length + 1 + 1) (rest := i :: body) hpre rfl h0 ⟨rfl, rfl, rfl, rfl⟩
  rw [show (pre ++ i :: body).length + 1 = pre.length + (body.length + 1 + 1) by simp; omega, e, zReadSoa]
  rcases hi with rfl | ⟨r, rfl, hs⟩
  · have e2 : zNext z h' = ok (.bad, { z with rest := body }, h') := by unfold zNext; rw [hr]
    rw [e2, ok_bind]
    dsimp only
    rw [ok_bind]
    obtain ⟨h3, e3, o3⟩ := zDestroy_ok (z := { z with rest := body, valid := false }) (h := h') (X := X) ho
    exact ⟨h3, by simp only [Bool.false_eq_true, if_false]; rw [e3, ok_bind], o3⟩
  · obtain ⟨b, p, h2, e2, o2⟩ := zNext_record hr ho
    rw [e2, ok_bind]
    dsimp only
    obtain ⟨h3, e3, o3⟩ := owns_free (p := some b) (Y := ZFile.blocks { z with rest := body, prev := some p } ++ X) o2 (by
      rw [List.perm_iff_count]; intro c; simp only [List.count_append, List.count_cons, Option.toList_some, List.count_nil]; omega)
    rw [if_pos hs, e3, ok_bind, ok_bind]
    obtain ⟨h4, e4, o4⟩ := zDestroy_ok (z := { z with rest := body, prev := some p, valid := false }) (h := h3) (X := X) o3
    exact ⟨h4, by simp only [Bool.false_eq_true, if_false]; rw [e4, ok_bind], o4⟩

/-- **C103 is violated**: a file without any record (for example an empty one, or, because `zcat` then prints nothing, a missing compressed one) makes the
reader loop forever, since at the end of the file libldns reports another empty line. -/
theorem C103_init_hang_violated (fopen run : List UInt8 → Option (List ZItem)) (popen : Ubuf → Option (List ZItem)) (fname : List UInt8) (h : Heap) (X : List Nat)
    (pre : List ZItem) (hp : SeesCommand popen run) (hn : (0 : UInt8) ∉ fname) (hx : LiveAre h X)
    (hc : zContent fopen run fname = some pre) (hpre : ∀ i ∈ pre, NoRecord i) : zInit fopen popen fname h = hang := by
  rw [zInit_eq hp hn, hc]
  dsimp only
  have h0 := start_owns hx (zIsGz fname) pre
  obtain ⟨z, h', e, hr, -⟩ := zReadSoa_pre pre (fuel := 1) (rest := []) hpre (by simp) h0 ⟨rfl, rfl, rfl, rfl⟩
  rw [e, zReadSoa_end hr]
  rfl

/-- **C103 is violated**: if the file cannot be opened, the object is not released. -/
theorem C103_open_leak_violated (fopen run : List UInt8 → Option (List ZItem)) (popen : Ubuf → Option (List ZItem)) (fname : List UInt8) (h : Heap) (X : List Nat)
    (hp : SeesCommand popen run) (hn : (0 : UInt8) ∉ fname) (hx : LiveAre h X) (hc : zContent fopen run fname = none) :
    ∃ h' b, zInit fopen popen fname h = ok (none, h') ∧ LiveAre h' (b :: X) := by
  rw [zInit_eq hp hn, hc]
  exact ⟨_, _, rfl, owns_malloc hx⟩

/-! ## reading -/

/-- The object has these records still to give. -/
structure Gives (z : ZFile) (L : List ZRec) : Prop where
  valid : z.valid = true
  body : ∀ i ∈ z.rest, BodyItem i
  recs : (∃ s b, z.soa = some (s, b) ∧ z.count = 1 ∧ z.eof = false ∧ L = s :: zoneRecs z.rest) ∨
    (z.soa = none ∧ (z.eof = true → z.rest = []) ∧ L = zoneRecs z.rest)

theorem zReadLoop_spec {X : List Nat} : ∀ (rest : List ZItem) {fuel : Nat} {z : ZFile} {h : Heap}, z.rest = rest → rest.length < fuel →
    z.valid = true → (∀ i ∈ z.rest, BodyItem i) → z.soa = none → z.eof = false → Owns h (ZFile.blocks z ++ X) →
    ∃ o z' h', zReadLoop fuel z h = ok (o, z', h') ∧ outRec o = (zoneRecs rest).head? ∧ o ≠ .error ∧ Gives z' (zoneRecs rest).tail ∧
      Owns h' (ZFile.blocks z' ++ (outBlock o ++ X)) ∧ z'.soa = none ∧ z'.count = z.count + (outRec o).toList.length ∧ z'.domainName = z.domainName := by
  intro rest
  induction rest with
  | nil =>
    intro fuel z h hr hf hv hb hs he ho
    obtain ⟨fuel, rfl⟩ : ∃ k, fuel = k + 1 := ⟨fuel - 1, by omega⟩
    rw [zReadLoop, if_pos hr]
    exact ⟨.null, _, _, rfl, rfl, by simp, ⟨hv, by simp [hr], .inr ⟨hs, fun _ => hr, by simp [hr, zoneRecs]⟩⟩, ho, hs, rfl, rfl⟩
  | cons i rest ih =>
    intro fuel z h hr hf hv hb hs he ho
    obtain ⟨fuel, rfl⟩ : ∃ k, fuel = k + 1 := ⟨fuel - 1, by omega⟩
    rw [zReadLoop, if_neg (by rw [hr]; simp)]
    have hi := hb i (by rw [hr]; simp)
    have hb' : ∀ x ∈ rest, BodyItem x := fun x hx => hb x (by rw [hr]; exact List.mem_cons_of_mem _ hx)
    by_cases hnr : NoRecord i
    · obtain ⟨o, h1, e1, o1, -, -⟩ := zNext_skip hr hnr ho
      rw [e1, ok_bind]
      dsimp only
      rw [zoneRecs_cons_none hnr]
      exact ih (z := { z with rest := rest, origin := o }) rfl (by simp at hf; omega) hv hb' hs he o1
    · cases i with
      | rr r =>
        obtain ⟨b, p, h1, e1, o1⟩ := zNext_record hr ho
        rw [e1, ok_bind]
        dsimp only
        rw [if_neg (by simp [show r.soa = false from hi])]
        exact ⟨.record r b, _, _, rfl, rfl, by simp, ⟨hv, hb', .inr ⟨hs, fun h => by simp [he] at h, rfl⟩⟩, o1, hs, rfl, rfl⟩
      | bad => exact absurd hi id
      | blank => exact absurd trivial hnr
      | ttl => exact absurd trivial hnr
      | origin => exact absurd trivial hnr

theorem zRead_spec {X : List Nat} {z : ZFile} {h : Heap} {L : List ZRec} (hg : Gives z L) (ho : Owns h (ZFile.blocks z ++ X)) :
    ∃ o z' h', zRead z h = ok (o, z', h') ∧ outRec o = L.head? ∧ o ≠ .error ∧ Gives z' L.tail ∧ Owns h' (ZFile.blocks z' ++ (outBlock o ++ X)) ∧
      z'.soa = none ∧ z'.count = z.count + (if z.soa.isSome then 0 else (outRec o).toList.length) ∧ z'.domainName = z.domainName := by
  obtain ⟨hv, hb, ⟨s, b, h1, h2, h3, rfl⟩ | ⟨h1, h2, rfl⟩⟩ := hg
  · refine ⟨.record s b, { z with soa := none }, h, ?_, rfl, by simp, ⟨hv, hb, .inr ⟨rfl, fun h => ?_, rfl⟩⟩, ho.perm ?_, rfl, by simp [h1], rfl⟩
    · unfold zRead
      rw [if_neg (by simp [h3]), if_neg (by simp [hv]), h1, h2]
      rfl
    · simp only at h; rw [h3] at h; cases h
    · unfold ZFile.blocks
      rw [h1]
      simp only [Option.map_some, Option.map_none, outBlock]
      permc
  · by_cases he : z.eof = true
    · have hr := h2 he
      refine ⟨.null, z, h, by unfold zRead; rw [if_pos he], by simp [hr, zoneRecs, outRec], by simp, ?_, ho, h1, by simp [outRec], rfl⟩
      exact ⟨hv, hb, .inr ⟨h1, h2, by simp [hr, zoneRecs]⟩⟩
    · have he : z.eof = false := by simpa using he
      obtain ⟨o, z', h', e, r1, r2, r3, r4, r5, r6, r7⟩ := zReadLoop_spec z.rest (fuel := z.rest.length + 1) (X := X) rfl (by omega) hv hb h1 he ho
      refine ⟨o, z', h', ?_, r1, r2, r3, r4, r5, by rw [r6, h1]; rfl, r7⟩
      unfold zRead
      rw [if_neg (by simp [he]), if_neg (by simp [hv]), h1]
      cases decide (z.count = 1) <;> exact e

theorem zReads_spec : ∀ (n : Nat) {X : List Nat} {z : ZFile} {h : Heap} {L : List ZRec}, Gives z L → Owns h (ZFile.blocks z ++ X) →
    ∃ os z' h', zReads n z h = ok (os, z', h') ∧ os.map outRec = (L.map some).take n ++ List.replicate (n - L.length) none ∧ (∀ o ∈ os, o ≠ .error) ∧
      Owns h' (ZFile.blocks z' ++ (os.flatMap outBlock ++ X)) ∧ z'.count + (if z.soa.isSome ∧ n ≠ 0 then 1 else 0) = z.count + min n L.length ∧
      z'.domainName = z.domainName := by
  intro n
  induction n with
  | zero => intro X z h L hg ho; exact ⟨[], z, h, rfl, by simp, by simp, ho, by simp, rfl⟩
  | succ n ih =>
    intro X z h L hg ho
    obtain ⟨o, z1, h1, e1, r1, r2, g1, o1, s1, c1, d1⟩ := zRead_spec hg ho
    obtain ⟨os, z2, h2, e2, q1, q2, o2, c2, d2⟩ := ih g1 o1
    refine ⟨o :: os, z2, h2, by simp only [zReads, e1, e2, ok_bind], ?_, ?_, o2.perm ?_, ?_, by rw [d2, d1]⟩
    · rw [List.map_cons, q1, r1]
      cases L with
      | nil => simp [List.replicate_succ]
      | cons r L => simp
    · intro x hx
      rcases List.mem_cons.mp hx with rfl | hx
      · exact r2
      · exact q2 x hx
    · rw [List.perm_iff_count]; intro x; simp only [List.count_append, List.flatMap_cons]; omega
    · rw [s1] at c2
      simp only [Option.isSome_none, Bool.false_eq_true, false_and, if_false, Nat.add_zero] at c2
      rw [c2, c1, r1]
      cases L with
      | nil => 
        have hn : z.soa.isSome = false := by
          obtain ⟨-, -, ⟨s, b, _, _, _, h4⟩ | ⟨h4, -, -⟩⟩ := hg
          · cases h4
          · rw [h4]; rfl
        simp [hn]
      | cons r L =>
        cases hz : z.soa.isSome <;> simp <;> omega

theorem init_gives {fopen run : List UInt8 → Option (List ZItem)} {popen : Ubuf → Option (List ZItem)} {fname : List UInt8} {h h1 : Heap} {X : List Nat}
    {pre body : List ZItem} {s : ZRec} {z : ZFile} (hp : SeesCommand popen run) (hn : (0 : UInt8) ∉ fname) (hx : LiveAre h X)
    (hc : zContent fopen run fname = some (pre ++ .rr s :: body)) (hpre : ∀ i ∈ pre, NoRecord i) (hs : s.soa = true) (hbody : ∀ i ∈ body, BodyItem i)
    (e1 : zInit fopen popen fname h = ok (some z, h1)) : ∃ b, z.soa = some (s, b) ∧ Gives z (s :: zoneRecs body) := by
  rw [zInit_eq hp hn, hc] at e1
  dsimp only at e1
  have h0 := start_owns hx (zIsGz fname) (pre ++ .rr s :: body)
  obtain ⟨z2, h', e, hr, ho, hf, -⟩ := zReadSoa_pre pre (fuel := body.length + 1 + 1) (rest := .rr s :: body) hpre rfl h0 ⟨rfl, rfl, rfl, rfl⟩
  rw [show (pre ++ ZItem.rr s :: body).length + 1 = pre.length + (body.length + 1 + 1) by simp; omega, e, zReadSoa] at e1
  obtain ⟨b, p, h2, e2, o2⟩ := zNext_record hr ho
  rw [e2, ok_bind] at e1
  dsimp only at e1
  rw [if_neg (by simp [hs]), ok_bind] at e1
  dsimp only at e1
  rw [if_pos rfl] at e1
  cases e1
  exact ⟨b, rfl, hf.valid, hbody, .inl ⟨s, b, rfl, rfl, hf.eof, rfl⟩⟩

theorem reads_soa : ∀ (n : Nat) {X : List Nat} {z : ZFile} {h : Heap} {L : List ZRec}, Gives z L → Owns h (ZFile.blocks z ++ X) → z.soa = none →
    ∃ os z' h', zReads n z h = ok (os, z', h') ∧ z'.soa = none := by
  intro n
  induction n with
  | zero => intro X z h L _ _ hs; exact ⟨[], z, h, rfl, hs⟩
  | succ n ih =>
    intro X z h L hg ho hs
    obtain ⟨o, z1, h1, e1, -, -, g1, o1, s1, -⟩ := zRead_spec hg ho
    obtain ⟨os, z2, h2, e2, s2⟩ := ih g1 o1 s1
    exact ⟨o :: os, z2, h2, by simp only [zReads, e1, e2, ok_bind], s2⟩

/-- **C103.** Reading a zone file: if it has a SOA record first, no other SOA record and nothing that cannot be read, then reading `n` times gives the SOA record and the other
records in the order of the file, and after that always `NULL`; the counter is the number of records read so far, but at least one.  The records belong to the caller, and
destroying the object releases everything else (apart from the origin lost on opening). -/
theorem C103_reads (fopen run : List UInt8 → Option (List ZItem)) (popen : Ubuf → Option (List ZItem)) (fname : List UInt8) (h : Heap) (X : List Nat)
    (pre body : List ZItem) (s : ZRec) (n : Nat) (hp : SeesCommand popen run) (hn : (0 : UInt8) ∉ fname) (hx : LiveAre h X)
    (hc : zContent fopen run fname = some (pre ++ .rr s :: body)) (hpre : ∀ i ∈ pre, NoRecord i) (hs : s.soa = true) (hbody : ∀ i ∈ body, BodyItem i) :
    ∃ z h1 os z' h2 h3 lost, zInit fopen popen fname h = ok (some z, h1) ∧ zReads n z h1 = ok (os, z', h2) ∧ zDestroy z' h2 = ok h3 ∧
      os.map outRec = ((s :: zoneRecs body).map some).take n ++ List.replicate (n - (zoneRecs body).length - 1) none ∧ (∀ o ∈ os, o ≠ .error) ∧
      z'.count = max 1 (min n ((zoneRecs body).length + 1)) ∧ z'.domainName = s.owner ∧
      LiveAre h3 (os.flatMap outBlock ++ lost ++ X) ∧ lost.length = (if .origin ∈ pre then 1 else 0) := by
  obtain ⟨z, h1, lost, e1, d1, c1, sz, r1, o1, l1⟩ := C103_init fopen run popen fname h X pre body s hp hn hx hc hpre hs
  obtain ⟨b, hsb, hg⟩ := init_gives hp hn hx hc hpre hs hbody e1
  obtain ⟨os, z', h2, e2, q1, q2, o2, c2, d2⟩ := zReads_spec n (X := lost ++ X) hg (by rw [← List.append_assoc]; exact o1)
  obtain ⟨h3, e3, o3⟩ := zDestroy_ok o2
  refine ⟨z, h1, os, z', h2, h3, lost, e1, e2, e3, by rw [q1, List.length_cons]; rfl, q2, ?_, by rw [d2, d1], by rw [List.append_assoc]; exact o3, l1⟩
  rw [hsb, c1] at c2
  simp only [Option.isSome_some, true_and, List.length_cons] at c2
  split at c2 <;> omega

/-- **C103 is violated**: the serial number is available only until the SOA record has been read; after that, asking for it is an assertion failure. -/
theorem C103_serial_violated (fopen run : List UInt8 → Option (List ZItem)) (popen : Ubuf → Option (List ZItem)) (fname : List UInt8) (h : Heap) (X : List Nat)
    (pre body : List ZItem) (s : ZRec) (n : Nat) (hp : SeesCommand popen run) (hn : (0 : UInt8) ∉ fname) (hx : LiveAre h X)
    (hc : zContent fopen run fname = some (pre ++ .rr s :: body)) (hpre : ∀ i ∈ pre, NoRecord i) (hs : s.soa = true) (hbody : ∀ i ∈ body, BodyItem i) :
    ∃ z h1 os z' h2, zInit fopen popen fname h = ok (some z, h1) ∧ zReads n z h1 = ok (os, z', h2) ∧ zSerial z' = if n = 0 then ok s.serial else abort := by
  obtain ⟨z, h1, lost, e1, d1, c1, sz, r1, o1, l1⟩ := C103_init fopen run popen fname h X pre body s hp hn hx hc hpre hs
  obtain ⟨b, -, hg⟩ := init_gives hp hn hx hc hpre hs hbody e1
  cases n with
  | zero => exact ⟨z, h1, [], z, h1, e1, rfl, sz⟩
  | succ n =>
    obtain ⟨o, z1, h2, e2, -, -, g1, o2, s1, -⟩ := zRead_spec (X := lost ++ X) hg (by rw [← List.append_assoc]; exact o1)
    obtain ⟨os, z2, h3, e3, s3⟩ := reads_soa n g1 o2 s1
    exact ⟨z, h1, o :: os, z2, h3, e1, by simp only [zReads, e2, e3, ok_bind], by unfold zSerial; rw [s3]; rfl⟩

/-! ## any file -/

theorem zReadLoop_any {X : List Nat} : ∀ (rest : List ZItem) {fuel : Nat} {z : ZFile} {h : Heap}, z.rest = rest → rest.length < fuel →
    Owns h (ZFile.blocks z ++ X) → ∃ o z' h', zReadLoop fuel z h = ok (o, z', h') ∧ Owns h' (ZFile.blocks z' ++ (outBlock o ++ X)) := by
  intro rest
  induction rest with
  | nil =>
    intro fuel z h hr hf ho
    obtain ⟨fuel, rfl⟩ : ∃ k, fuel = k + 1 := ⟨fuel - 1, by omega⟩
    rw [zReadLoop, if_pos hr]
    exact ⟨.null, _, _, rfl, ho⟩
  | cons i rest ih =>
    intro fuel z h hr hf ho
    obtain ⟨fuel, rfl⟩ : ∃ k, fuel = k + 1 := ⟨fuel - 1, by omega⟩
    rw [zReadLoop, if_neg (by rw [hr]; simp)]
    by_cases hnr : NoRecord i
    · obtain ⟨o, h1, e1, o1, -, -⟩ := zNext_skip hr hnr ho
      rw [e1, ok_bind]
      exact ih (z := { z with rest := rest, origin := o }) rfl (by simp at hf; omega) o1
    · cases i with
      | rr r =>
        obtain ⟨b, p, h1, e1, o1⟩ := zNext_record hr ho
        rw [e1, ok_bind]
        dsimp only
        by_cases hs : r.soa = true
        · obtain ⟨h2, e2, o2⟩ := owns_free (p := some b) (Y := ZFile.blocks { z with rest := rest, prev := some p } ++ X) o1 (by
            rw [List.perm_iff_count]; intro c; simp only [List.count_append, List.count_cons, Option.toList_some, List.count_nil]; omega)
          rw [if_pos hs, e2, ok_bind]
          exact ⟨.null, _, _, rfl, o2⟩
        · rw [if_neg hs]
          exact ⟨.record r b, _, _, rfl, o1⟩
      | bad =>
        have e1 : zNext z h = ok (.bad, { z with rest := rest }, h) := by unfold zNext; rw [hr]
        rw [e1, ok_bind]
        exact ⟨.error, _, _, rfl, ho⟩
      | blank => exact absurd trivial hnr
      | ttl => exact absurd trivial hnr
      | origin => exact absurd trivial hnr

theorem zRead_any {X : List Nat} {z : ZFile} {h : Heap} (ho : Owns h (ZFile.blocks z ++ X)) :
    ∃ o z' h', zRead z h = ok (o, z', h') ∧ Owns h' (ZFile.blocks z' ++ (outBlock o ++ X)) := by
  unfold zRead
  by_cases he : z.eof = true
  · rw [if_pos he]; exact ⟨.null, z, h, rfl, ho⟩
  · rw [if_neg he]
    by_cases hv : z.valid = false
    · rw [if_pos hv]; exact ⟨.error, z, h, rfl, ho⟩
    · rw [if_neg hv]
      split
      · rename_i r b _ hsb
        refine ⟨.record r b, { z with soa := none }, h, rfl, ho.perm ?_⟩
        unfold ZFile.blocks
        rw [hsb]
        simp only [Option.map_some, Option.map_none, outBlock]
        permc
      · exact zReadLoop_any z.rest rfl (by omega) ho

/-- **C103.** Whatever else the file contains — other SOA records, malformed lines — every read returns, nothing is freed twice or used after it was freed, and destroying the
object leaves the records that were handed out (and the origin lost on opening), nothing else. -/
theorem C103_no_leak (fopen run : List UInt8 → Option (List ZItem)) (popen : Ubuf → Option (List ZItem)) (fname : List UInt8) (h : Heap) (X : List Nat)
    (pre body : List ZItem) (s : ZRec) (n : Nat) (hp : SeesCommand popen run) (hn : (0 : UInt8) ∉ fname) (hx : LiveAre h X)
    (hc : zContent fopen run fname = some (pre ++ .rr s :: body)) (hpre : ∀ i ∈ pre, NoRecord i) (hs : s.soa = true) :
    ∃ z h1 os z' h2 h3 lost, zInit fopen popen fname h = ok (some z, h1) ∧ zReads n z h1 = ok (os, z', h2) ∧ zDestroy z' h2 = ok h3 ∧
      LiveAre h3 (os.flatMap outBlock ++ lost ++ X) ∧ lost.length = (if .origin ∈ pre then 1 else 0) := by
  obtain ⟨z, h1, lost, e1, d1, c1, sz, r1, o1, l1⟩ := C103_init fopen run popen fname h X pre body s hp hn hx hc hpre hs
  have key : ∀ (n : Nat) {X : List Nat} {z : ZFile} {h : Heap}, Owns h (ZFile.blocks z ++ X) →
      ∃ os z' h', zReads n z h = ok (os, z', h') ∧ Owns h' (ZFile.blocks z' ++ (os.flatMap outBlock ++ X)) := by
    intro n
    induction n with
    | zero => intro X z h ho; exact ⟨[], z, h, rfl, ho⟩
    | succ n ih =>
      intro X z h ho
      obtain ⟨o, z1, h1, e1, o1⟩ := zRead_any ho
      obtain ⟨os, z2, h2, e2, o2⟩ := ih o1
      refine ⟨o :: os, z2, h2, by simp only [zReads, e1, e2, ok_bind], o2.perm ?_⟩
      rw [List.perm_iff_count]; intro x; simp only [List.count_append, List.flatMap_cons]; omega
  obtain ⟨os, z', h2, e2, o2⟩ := key n (X := lost ++ X) (by rw [← List.append_assoc]; exact o1)
  obtain ⟨h3, e3, o3⟩ := zDestroy_ok o2
  exact ⟨z, h1, os, z', h2, h3, lost, e1, e2, e3, by rw [List.append_assoc]; exact o3, l1⟩

/-! ## concrete cases -/

/-- The `popen` of a shell that runs `run`. -/
theorem sees_const (x : Option (List ZItem)) : SeesCommand (fun _ => x) (fun _ => x) := fun _ _ _ _ => rfl

def zSoa : ZRec := ⟨true, ascii "example.", 2024⟩
def zA : ZRec := ⟨false, ascii "a.example.", 0⟩
def zB : ZRec := ⟨false, ascii "b.example.", 0⟩
def zGood : List ZItem := [.ttl, .origin, .blank, .rr zSoa, .blank, .rr zA, .origin, .rr zB, .blank]

/-- The hypotheses of `C103_init` and `C103_reads` on a file with an `$ORIGIN` line in front of the SOA record. -/
example : LiveAre ⟨5, [2]⟩ [2] ∧ zContent (fun _ => some zGood) (fun _ => none) (ascii "zone") = some ([.ttl, .origin, .blank] ++ .rr zSoa :: zGood.drop 4) ∧
    (∀ i ∈ [ZItem.ttl, .origin, .blank], NoRecord i) ∧ (∀ i ∈ zGood.drop 4, BodyItem i) ∧ (0 : UInt8) ∉ ascii "zone" := by
  refine ⟨by unfold LiveAre; decide, ?_, by decide, by decide, by decide⟩
  unfold zContent
  rw [if_neg (by decide)]
  rfl

/-- What it gives on that file: three records, then the end. -/
example : ((zInit (fun _ => some zGood) (fun _ => none) (ascii "zone") ⟨5, [2]⟩) >>= fun x => match x with
    | (some z, h) => zReads 5 z h >>= fun y => ok (y.1.map outRec, y.2.1.count)
    | (none, _) => abort) = ok ([some zSoa, some zA, some zB, none, none], 3) := by decide +kernel

/-- The hypotheses of `C103_init_rejects`: the first record is an address. -/
example : zContent (fun _ => none) (fun c => if c = ascii "zcat z.gz" then some [.blank, .rr zA, .rr zSoa] else none) (ascii "z.gz") =
    some ([.blank] ++ .rr zA :: [.rr zSoa]) ∧ zA.soa = false := by
  unfold zContent
  rw [if_pos (by decide)]
  exact ⟨rfl, rfl⟩

/-- The hypotheses of `C103_init_hang_violated`: `zcat` prints nothing for a file that does not exist. -/
example : zContent (fun _ => none) (fun _ => some []) (ascii "missing.gz") = some [] := by
  unfold zContent
  rw [if_pos (by decide)]

/-- The hypotheses of `C103_open_leak_violated`: a missing file that is not compressed. -/
example : zContent (fun _ => none) (fun _ => some []) (ascii "missing") = none := by
  unfold zContent
  rw [if_neg (by decide)]

/-- **C103 is violated**: a second SOA record (as at the end of a transferred zone) is reported like the end of the file, but the reader is not at its end: the next
read gives the record that follows. -/
theorem C103_second_soa_violated : ((zInit (fun _ => some [.rr zSoa, .rr zA, .rr zSoa, .rr zB]) (fun _ => none) (ascii "zone") ⟨0, []⟩) >>= fun x => match x with
    | (some z, h) => zReads 5 z h >>= fun y => ok (y.1.map outRec, y.2.1.count)
    | (none, _) => abort) = ok ([some zSoa, some zA, none, some zB, none], 3) := by decide +kernel

/-- **C103.** An error does not end the reading either; the next read continues behind it. -/
theorem C103_error_continues : ((zInit (fun _ => some [.rr zSoa, .bad, .rr zB]) (fun _ => none) (ascii "zone") ⟨0, []⟩) >>= fun x => match x with
    | (some z, h) => zReads 4 z h >>= fun y => ok (y.1.map outRec, y.1.map (· == .error))
    | (none, _) => abort) = ok ([some zSoa, none, some zB, none], [false, true, false, false]) := by decide +kernel

/-- **C103 is violated**: an origin set in front of the SOA record is not released. -/
theorem C103_origin_leak_violated : ((zInit (fun _ => some [.origin, .rr zSoa]) (fun _ => none) (ascii "zone") ⟨0, []⟩) >>= fun x => match x with
    | (some z, h) => zDestroy z h >>= fun h => ok h.live
    | (none, _) => abort) = ok [2] := by decide +kernel

/-- **C103.** The name of a compressed file becomes part of a command for the shell as it is: blanks, semicolons and quotes in it are not protected. -/
theorem C103_command_violated (fname : List UInt8) (hn : (0 : UInt8) ∉ fname) : ∃ u, zCommand fname = ok u ∧ UHolds u (ascii "zcat " ++ fname ++ [0]) :=
  zCommand_spec hn

/-- For example, this name makes the shell run `id`. -/
example : ∃ u, zCommand (ascii "x;id;.gz") = ok u ∧ UHolds u (ascii "zcat x;id;.gz" ++ [0]) := C103_command_violated (ascii "x;id;.gz") (by decide)

end Wdns
