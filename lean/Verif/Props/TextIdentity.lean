import Verif.Lemmas.TextTokens
import Verif.Props.MessageText
import Verif.Props.RoundTripExact
import Verif.Props.FromText
import Verif.Props.Tables

/-!
# C120: a text identifies what it was made from
-/

namespace Wdns
open Outcome Spec

/-! ## Taking texts apart -/

theorem cut_at {c : UInt8} : ∀ {a b x y : List UInt8}, c ∉ a → c ∉ b → a ++ c :: x = b ++ c :: y → a = b ∧ x = y
  | [], [], x, y, _, _, h => by simpa using h
  | [], b :: bs, x, y, _, hb, h => by
    simp only [List.nil_append, List.cons_append, List.cons.injEq] at h
    exact absurd (List.mem_cons.mpr (.inl h.1)) hb
  | a :: as, [], x, y, ha, _, h => by
    simp only [List.nil_append, List.cons_append, List.cons.injEq] at h
    exact absurd (List.mem_cons.mpr (.inl h.1.symm)) ha
  | a :: as, b :: bs, x, y, ha, hb, h => by
    simp only [List.cons_append, List.cons.injEq] at h
    obtain ⟨h1, h2⟩ := cut_at (fun m => ha (List.mem_cons_of_mem _ m)) (fun m => hb (List.mem_cons_of_mem _ m)) h.2
    exact ⟨by rw [h.1, h1], h2⟩

theorem Spec.Graphic.not32 {t : List UInt8} (h : Graphic t) : (32 : UInt8) ∉ t := fun m => absurd (h 32 m).1 (by decide)
theorem Spec.Graphic.not10 {t : List UInt8} (h : Graphic t) : (10 : UInt8) ∉ t := fun m => absurd (h 10 m).1 (by decide)
theorem Spec.Printable.not10 {t : List UInt8} (h : Printable t) : (10 : UInt8) ∉ t := fun m => absurd (h 10 m).1 (by decide)

theorem nameText_inj {n n' : Name} (h : WF n) (h' : WF n') (e : nameText n = nameText n') : wire n = wire n' := by
  have a := strToNameGen_text false n h
  have b := strToNameGen_text false n' h'
  rw [e, b] at a
  simp only [ok.injEq, CName.mk.injEq, caseName_false] at a
  exact a.2.symm

theorem decText_inj {a b : Nat} (h : decText a = decText b) : a = b :=
  (decText_isDecimal a).2.2.2.symm.trans ((congrArg decVal h).trans (decText_isDecimal b).2.2.2)

theorem typeText_read {t : Nat} (h : t < 65536) : strToRrtype (typeText t) = ok t := by
  unfold typeText
  cases e : rrtypeToStr t with
  | some s => exact C47_named_type t s s e rfl
  | none => exact C47_generic_type t (by omega) _ _ (by decide) (decText_isDecimal t)

theorem typeText_inj {t u : Nat} (ht : t < 65536) (hu : u < 65536) (h : typeText t = typeText u) : t = u := by
  have := typeText_read ht
  rw [h, typeText_read hu] at this
  exact (Outcome.ok.inj this).symm

theorem classText_read {t : Nat} (h : t < 65536) : strToRrclass (classText t) = ok t := by
  unfold classText
  cases e : rrclassToStr t with
  | some s => exact C48_named_class t s s e rfl
  | none => exact C48_generic_class t (by omega) _ _ (by decide) (decText_isDecimal t)

theorem classText_inj {t u : Nat} (ht : t < 65536) (hu : u < 65536) (h : classText t = classText u) : t = u := by
  have := classText_read ht
  rw [h, classText_read hu] at this
  exact (Outcome.ok.inj this).symm

theorem graphic_classText (c : Nat) : Graphic (classText c) := by
  unfold classText
  cases h : rrclassToStr c with
  | none => exact Graphic.append (by decide) (graphic_decText _)
  | some s =>
    have : ∀ x ∈ rrclassCases, Graphic x.2 := by decide +kernel
    exact this (c, s) (switchOf_mem h)

/-! ## Rdata -/

/-- The text of an rdata that can be expressed determines it. -/
theorem rdPart_inj {ty cls : Nat} {w w' p : List UInt8} (hx : Expressible ty cls w) (hx' : Expressible ty cls w') (hl : w.length < 65536)
    (hl' : w'.length < 65536) (h : RdPart ty cls w p) (h' : RdPart ty cls w' p) : w = w' := by
  cases hd : recordDescr ty with
  | none =>
    have key : ∀ {w}, RdPart ty cls w p → p = [32] ++ genericText w := by
      intro w h
      cases h with
      | generic => rfl
      | hidden h1 => rw [hd] at h1; cases h1
      | noOpt h1 => subst h1; rw [recordDescr_opt] at hd; cases hd
      | opt h1 => subst h1; rw [recordDescr_opt] at hd; cases hd
      | known _ h1 => rw [hd] at h1; cases h1
    have e := (key h).symm.trans (key h')
    have e := List.append_cancel_left e
    have a := sUnknown_generic w [] hl
    have b := sUnknown_generic w' [] hl'
    rw [e, b] at a
    simpa using a.symm
  | some d =>
    have x := hx d hd
    have x' := hx' d hd
    by_cases hs : d.applies cls = false ∨ ty = 41
    · rw [if_pos hs] at x x'; rw [x, x']
    · rw [if_neg hs] at x x'
      have key : ∀ {w}, Exact d.types w → RdPart ty cls w p → ∃ toks, strToRdata (spaced toks) ty cls = ok w ∧
          p = if toks = [] then [] else [32] ++ spaced toks := by
        intro w hx h
        cases h with
        | generic h1 => rw [hd] at h1; cases h1
        | hidden h1 h2 => rw [hd] at h1; cases h1; exact absurd (.inl h2) hs
        | noOpt h1 => exact absurd (.inr h1) hs
        | opt h1 => exact absurd (.inr h1) hs
        | @known d' toks h0 h1 h2 h3 =>
          rw [hd] at h1; cases h1
          obtain ⟨p', h3⟩ := fields_scan h3 hx (descr_good hd) (some (spaced toks)) _ [] At.some (Or.inr rfl)
          exact ⟨toks, strToRdata_fields hd h2 (by rw [h3, List.nil_append]), rfl⟩
      obtain ⟨t, h1, h2⟩ := key x h
      obtain ⟨t', h3, h4⟩ := key x' h'
      have : spaced t = spaced t' := by
        rw [h2] at h4
        by_cases a : t = [] <;> by_cases b : t' = []
        · rw [a, b]
        · rw [if_pos a, if_neg b] at h4; cases h4
        · rw [if_neg a, if_pos b] at h4; cases h4
        · rw [if_neg a, if_neg b] at h4; exact List.append_cancel_left h4
      rw [this, h3] at h1
      exact (Outcome.ok.inj h1).symm

/-- The text of an rdata that can be expressed is on one line. -/
theorem rdPart_line {ty cls : Nat} {w p : List UInt8} (hx : Expressible ty cls w) (h : RdPart ty cls w p) :
    (10 : UInt8) ∉ p ∧ (p = [] ∨ ∃ q, p = 32 :: q) := by
  cases h with
  | generic => exact ⟨(Printable.append (by decide) (printable_generic _)).not10, .inr ⟨_, rfl⟩⟩
  | hidden => exact ⟨by decide, .inr ⟨_, rfl⟩⟩
  | noOpt => exact ⟨by simp, .inl rfl⟩
  | @opt s h1 h2 =>
    subst h1
    have x := hx _ recordDescr_opt
    rw [if_pos (.inr rfl)] at x
    subst x
    exfalso
    generalize hw : ([] : List UInt8) = w at h2
    cases h2 <;> simp [net16] at hw
  | @known d toks h0 h1 h2 h3 =>
    split
    · exact ⟨by simp, .inl rfl⟩
    · exact ⟨(Printable.append (by decide) (printable_spaced (printableTok_rdata h3))).not10, .inr ⟨_, rfl⟩⟩

/-! ## Records -/

/-- A record as it comes from a packet, with an rdata that can be expressed in text. -/
structure Spec.TextRecord (sec : Nat) (rr : RR) : Prop where
  ty : rr.rrtype < 65536
  cls : rr.rrclass < 65536
  rdata : sec ≠ 0 → ∀ d, rr.rdata = some d → d.bytes.length < 65536 ∧ Expressible rr.rrtype rr.rrclass d.bytes

/-- Two records that cannot be told apart, in section `sec`: same owner, class, type; in the other sections than the question
section same TTL and rdata. -/
def Spec.SameRecord (sec : Nat) (a b : RR) : Prop :=
  a.name.bytes = b.name.bytes ∧ a.rrclass = b.rrclass ∧ a.rrtype = b.rrtype ∧
  (sec ≠ 0 → a.rrttl = b.rrttl ∧ a.rdata.map CRdata.bytes = b.rdata.map CRdata.bytes)

theorem rrText_line {sec : Nat} {rr : RR} {t : List UInt8} (hx : Spec.TextRecord sec rr) (h : RRText sec rr t) :
    ∃ l, t = l ++ [10] ∧ l ≠ [] ∧ (10 : UInt8) ∉ l := by
  cases h with
  | question h1 h2 =>
    refine ⟨_, rfl, by simp [ascii], ?_⟩
    exact ((((Printable.append (by decide) (printable_nameText _)).append (by decide)).append (printable_classText _)).append
      (by decide)).append (printable_typeText _) |>.not10
  | record h0 h1 h2 h3 h4 =>
    refine ⟨_, rfl, by simp [ascii], ?_⟩
    rw [List.mem_append]
    rintro (h | h)
    · exact (((((((printable_nameText _).append (by decide)).append (printable_decText _)).append (by decide)).append
        (printable_classText _)).append (by decide)).append (printable_typeText _)).not10 h
    · exact (rdPart_line (hx.rdata h0 _ h3).2 h4).1 h

theorem rrText_inj {sec : Nat} {a b : RR} {t : List UInt8} (ha : Spec.TextRecord sec a) (hb : Spec.TextRecord sec b)
    (h : RRText sec a t) (h' : RRText sec b t) : Spec.SameRecord sec a b := by
  have e32 : ascii " " = [32] := rfl
  have e10 : ascii "\n" = [10] := rfl
  cases h with
  | @question _ n h1 h2 =>
    generalize ht : ascii ";" ++ nameText n ++ ascii " " ++ classText a.rrclass ++ ascii " " ++ typeText a.rrtype ++ ascii "\n" = t at h'
    cases h' with
    | record h0 => exact absurd rfl h0
    | @question _ n' g1 g2 =>
      simp only [e32, e10, List.append_assoc, List.cons_append, List.nil_append] at ht
      have ht := List.append_cancel_left ht
      obtain ⟨x1, ht⟩ := cut_at (graphic_nameText _).not32 (graphic_nameText _).not32 ht
      obtain ⟨x2, ht⟩ := cut_at (graphic_classText _).not32 (graphic_classText _).not32 ht
      obtain ⟨x3, -⟩ := cut_at (graphic_typeText _).not10 (graphic_typeText _).not10 ht
      exact ⟨by rw [h1, g1, nameText_inj h2 g2 x1], classText_inj ha.cls hb.cls x2, typeText_inj ha.ty hb.ty x3, fun h => absurd rfl h⟩
  | @record _ _ n d p h0 h1 h2 h3 h4 =>
    generalize ht : nameText n ++ ascii " " ++ decText a.rrttl ++ ascii " " ++ classText a.rrclass ++ ascii " " ++
      typeText a.rrtype ++ p ++ ascii "\n" = t at h'
    cases h' with
    | question => exact absurd rfl h0
    | @record _ _ n' d' p' _ g1 g2 g3 g4 =>
      simp only [e32, e10, List.append_assoc, List.cons_append, List.nil_append] at ht
      obtain ⟨x1, ht⟩ := cut_at (graphic_nameText _).not32 (graphic_nameText _).not32 ht
      obtain ⟨x2, ht⟩ := cut_at (graphic_decText _).not32 (graphic_decText _).not32 ht
      obtain ⟨x3, ht⟩ := cut_at (graphic_classText _).not32 (graphic_classText _).not32 ht
      obtain ⟨l1, s1⟩ := rdPart_line (ha.rdata h0 _ h3).2 h4
      obtain ⟨l2, s2⟩ := rdPart_line (hb.rdata h0 _ g3).2 g4
      have x4 : typeText a.rrtype = typeText b.rrtype ∧ p = p' := by
        have n1 : ∀ t, (10 : UInt8) ∉ typeText t := fun t => (graphic_typeText t).not10
        have n2 : ∀ t, (32 : UInt8) ∉ typeText t := fun t => (graphic_typeText t).not32
        rw [← List.append_assoc, ← List.append_assoc] at ht
        have ht' := (cut_at (c := 10) (x := []) (y := []) (by simp [n1, l1]) (by simp [n1, l2]) ht).1
        rcases s1 with rfl | ⟨q, rfl⟩ <;> rcases s2 with rfl | ⟨q', rfl⟩
        · simpa using ht'
        · exact absurd (show (32 : UInt8) ∈ typeText a.rrtype by rw [List.append_nil] at ht'; rw [ht']; simp) (n2 _)
        · exact absurd (show (32 : UInt8) ∈ typeText b.rrtype by rw [List.append_nil] at ht'; rw [← ht']; simp) (n2 _)
        · obtain ⟨y1, y2⟩ := cut_at (n2 _) (n2 _) ht'
          exact ⟨y1, by rw [y2]⟩
      obtain ⟨x4, rfl⟩ := x4
      have ty := typeText_inj ha.ty hb.ty x4
      have cl := classText_inj ha.cls hb.cls x3
      refine ⟨by rw [h1, g1, nameText_inj h2 g2 x1], cl, ty, fun _ => ⟨decText_inj x2, ?_⟩⟩
      obtain ⟨la, xa⟩ := ha.rdata h0 _ h3
      obtain ⟨lb, xb⟩ := hb.rdata h0 _ g3
      rw [← ty, ← cl] at xb g4
      rw [h3, g3, Option.map_some, Option.map_some, rdPart_inj xa xb la lb h4 g4]

/-- The texts of records, one after the other, with something behind that begins with an empty line, or with nothing. -/
theorem lines_inj {sec : Nat} {x y : List UInt8} (hx : x = [] ∨ ∃ z, x = 10 :: z) (hy : y = [] ∨ ∃ z, y = 10 :: z) :
    ∀ {as bs : List RR} {t u : List UInt8}, (∀ r ∈ as, Spec.TextRecord sec r) → (∀ r ∈ bs, Spec.TextRecord sec r) →
      LinesOf sec as t → LinesOf sec bs u → t ++ x = u ++ y → List.Forall₂ (Spec.SameRecord sec) as bs ∧ x = y := by
  intro as
  induction as with
  | nil =>
    intro bs t u _ hb h h' e
    cases h with
    | nil =>
      cases h' with
      | nil => exact ⟨.nil, e⟩
      | @cons r _ l v h1 h2 =>
        exfalso
        obtain ⟨q, rfl, hq, hn⟩ := rrText_line (hb r (by simp)) h1
        cases q with
        | nil => exact hq rfl
        | cons c q =>
          simp only [List.nil_append, List.cons_append] at e
          rcases hx with rfl | ⟨z, rfl⟩
          · cases e
          · simp only [List.cons.injEq] at e
            exact hn (List.mem_cons.mpr (.inl e.1))
  | cons a as ih =>
    intro bs t u ha hb h h' e
    cases h with
    | @cons _ _ l v h1 h2 =>
      obtain ⟨q, rfl, hq, hn⟩ := rrText_line (ha a (by simp)) h1
      cases h' with
      | nil =>
        exfalso
        cases q with
        | nil => exact hq rfl
        | cons c q =>
          simp only [List.nil_append, List.cons_append] at e
          rcases hy with rfl | ⟨z, rfl⟩
          · cases e
          · simp only [List.cons.injEq] at e
            exact hn (List.mem_cons.mpr (.inl e.1.symm))
      | @cons b bs l' v' g1 g2 =>
        obtain ⟨q', rfl, hq', hn'⟩ := rrText_line (hb b (by simp)) g1
        simp only [List.append_assoc, List.cons_append, List.nil_append] at e
        obtain ⟨rfl, e2⟩ := cut_at hn hn' e
        obtain ⟨i1, i2⟩ := ih (fun r hr => ha r (by simp [hr])) (fun r hr => hb r (by simp [hr])) h2 g2 e2
        exact ⟨.cons (rrText_inj (ha a (by simp)) (hb b (by simp)) h1 g1) i1, i2⟩

/-! ## Messages -/

/-- The records of a packet that are kept in its sections can all be expressed in text. -/
def Spec.AllExpressible (m : Message) : Prop :=
  ∀ a ∈ m.sections, ∀ r ∈ a.rrs, ∀ d, r.rdata = some d → Expressible r.rrtype r.rrclass d.bytes

theorem text_records {mem : List UInt8} {len : Nat} {m : Message} (hm : len ≤ mem.length) (h64 : len < 2 ^ 64) (hlen : m.Fits)
    (hno : SvcNoLong (mem.take len)) (h : parseMessage mem len = ok m) (hx : Spec.AllExpressible m) {i : Nat} {a : RRsetArray}
    (ha : m.sections[i]? = some a) : ∀ r ∈ a.rrs, Spec.TextRecord i r := by
  intro r hr
  obtain ⟨all, h1, h2, h3, h4⟩ := parsed_from hm h64 hlen hno h
  obtain ⟨-, e, h5⟩ := h4 i a ha
  have hr' := hr
  rw [e] at hr'
  obtain ⟨o, sz, hp⟩ := h2 _ ((sectionOf_sub all i).1 r hr')
  obtain ⟨-, -, -, -, v3, v4⟩ := parseMessageRr_valid hp
  refine ⟨v3, v4, fun h0 d hd => ⟨?_, hx a (List.mem_of_getElem? ha) r hr d hd⟩⟩
  obtain ⟨x, g1, g2⟩ := (h5 r hr').rdata h0
  rw [hd] at g1
  cases g1
  simpa [CRdata.bytes] using g2.1

/-- **C120.** Two records of the same section of (the same or different) packets that are written as the same text are the
same record; two sections written as the same text have the same records in the same order. -/
theorem C120_section_partial {mem mem' : List UInt8} {len len' : Nat} {m m' : Message} {i : Nat} {a a' : RRsetArray}
    (hm : len ≤ mem.length) (h64 : len < 2 ^ 64) (hlen : m.Fits) (hno : SvcNoLong (mem.take len)) (h : parseMessage mem len = ok m)
    (hx : Spec.AllExpressible m) (ha : m.sections[i]? = some a)
    (hm' : len' ≤ mem'.length) (h64' : len' < 2 ^ 64) (hlen' : m'.Fits) (hno' : SvcNoLong (mem'.take len'))
    (h' : parseMessage mem' len' = ok m') (hx' : Spec.AllExpressible m') (ha' : m'.sections[i]? = some a') :
    (∀ r ∈ a.rrs, ∀ r' ∈ a'.rrs, rrToStr r i = rrToStr r' i → Spec.SameRecord i r r') ∧
    (rrsetArrayToStr a i = rrsetArrayToStr a' i → List.Forall₂ (Spec.SameRecord i) a.rrs a'.rrs) := by
  obtain ⟨⟨t, t1, t2⟩, t3⟩ := C62_section_text_partial mem len m i a hm h64 hlen hno h ha
  obtain ⟨⟨u, u1, u2⟩, u3⟩ := C62_section_text_partial mem' len' m' i a' hm' h64' hlen' hno' h' ha'
  have r1 := text_records hm h64 hlen hno h hx ha
  have r2 := text_records hm' h64' hlen' hno' h' hx' ha'
  refine ⟨fun r hr r' hr' e => ?_, fun e => ?_⟩
  · obtain ⟨l, l1, l2⟩ := t3 r hr
    obtain ⟨l', l3, l4⟩ := u3 r' hr'
    rw [l2, l4] at e
    cases e
    exact rrText_inj (r1 r hr) (r2 r' hr') l1 l3
  · rw [t2, u2] at e
    cases e
    exact (lines_inj (x := []) (y := []) (.inl rfl) (.inl rfl) r1 r2 t1 u1 rfl).1

/-! ### The lines for EDNS -/

/-- Every newline is followed by `; `. -/
inductive Commented : List UInt8 → Prop
  | nil : Commented []
  | char {c l} : c ≠ 10 → Commented l → Commented (c :: l)
  | line {l} : Commented l → Commented (10 :: 59 :: 32 :: l)

theorem commented_inj {a b x y : List UInt8} (ha : Commented a) (hb : Commented b) (h : a ++ 10 :: 59 :: 59 :: x = b ++ 10 :: 59 :: 59 :: y) :
    a = b ∧ x = y := by
  induction ha generalizing b with
  | nil =>
    cases hb with
    | nil => simpa using h
    | char hc _ => simp at h; exact absurd h.1.symm hc
    | line _ => simp at h
  | char hc _ ih =>
    cases hb with
    | nil => simp at h; exact absurd h.1 hc
    | char _ hb =>
      simp only [List.cons_append, List.cons.injEq] at h
      obtain ⟨h1, h2⟩ := ih hb h.2
      exact ⟨by rw [h.1, h1], h2⟩
    | line _ => simp at h; exact absurd h.1 hc
  | line _ ih =>
    cases hb with
    | nil => simp at h
    | char hc _ => simp at h; exact absurd h.1.symm hc
    | line hb =>
      simp only [List.cons_append, List.cons.injEq, true_and] at h
      obtain ⟨h1, h2⟩ := ih hb h
      exact ⟨by rw [h1], h2⟩

theorem commented_flat (s : List UInt8) : Commented (s.flatMap fun c => if c = 10 then ascii "\n; " else [c]) := by
  have e : ascii "\n; " = [10, 59, 32] := by decide
  rw [e]
  induction s with
  | nil => exact .nil
  | cons c s ih =>
    rw [List.flatMap_cons]
    by_cases h : c = 10
    · rw [if_pos h]; exact .line ih
    · rw [if_neg h]; exact .char h ih

/-- What the text of a message tells about EDNS: whether there is an OPT record, its version, the DO flag, the payload size. -/
def Spec.SameEdns (a b : Edns) : Prop :=
  a.present = b.present ∧ (a.present = true → a.version = b.version ∧ (a.flags / 32768 % 2 = 1 ↔ b.flags / 32768 % 2 = 1) ∧ a.size = b.size)

theorem digits_not (n : Nat) (c : UInt8) (h : ¬ (48 ≤ c.toNat ∧ c.toNat ≤ 57)) : c ∉ decText n := by
  intro m
  have := (decText_isDecimal n).2.1 c m
  unfold IsDigit at this
  exact h this

theorem edns_parts {a : Edns} {e : List UInt8} (h : EdnsLines a e) (hp : a.present = true) : ∃ o, Commented o ∧ (o = [] ∨ ∃ z, o = 10 :: z) ∧
    e = ascii "\n;; OPT PSEUDOSECTION:\n; EDNS: version: " ++ (decText a.version ++ 44 :: (ascii " flags:" ++
      ((if a.flags / 32768 % 2 = 1 then ascii " do" else []) ++ 59 :: (ascii " udp: " ++ (decText a.size ++ o))))) := by
  unfold EdnsLines at h
  rw [if_neg (by simp [hp])] at h
  have e1 : ascii ", flags:" = 44 :: ascii " flags:" := by decide
  have e2 : ascii "; udp: " = 59 :: ascii " udp: " := by decide
  have e3 : ascii "\n; " = [10, 59, 32] := by decide
  dsimp only at h
  split at h
  · refine ⟨[], .nil, .inl rfl, ?_⟩
    rw [h, e1, e2]
    simp only [List.append_assoc, List.cons_append, List.append_nil]
  · rcases h with ⟨-, h⟩ | ⟨s, -, h⟩
    · refine ⟨[], .nil, .inl rfl, ?_⟩
      rw [h, e1, e2]
      simp only [List.append_assoc, List.cons_append, List.append_nil]
    · refine ⟨10 :: 59 :: 32 :: s.flatMap fun c => if c = 10 then ascii "\n; " else [c], .line (commented_flat s), .inr ⟨_, rfl⟩, ?_⟩
      rw [h, e1, e2]
      generalize hz : (s.flatMap fun c => if c = 10 then ascii "\n; " else [c]) = z
      rw [e3]
      simp only [List.append_assoc, List.cons_append, List.nil_append]

theorem edns_inj {a b : Edns} {e f x y : List UInt8} (he : EdnsLines a e) (hf : EdnsLines b f)
    (h : e ++ (ascii "\n;; QUESTION SECTION:\n" ++ x) = f ++ (ascii "\n;; QUESTION SECTION:\n" ++ y)) :
    Spec.SameEdns a b ∧ e = f ∧ x = y := by
  obtain ⟨q, hq⟩ : ∃ q, ascii "\n;; QUESTION SECTION:\n" = 10 :: 59 :: 59 :: 32 :: 81 :: q := ⟨_, by rfl⟩
  obtain ⟨o, ho⟩ : ∃ o, ascii "\n;; OPT PSEUDOSECTION:\n; EDNS: version: " = 10 :: 59 :: 59 :: 32 :: 79 :: o := ⟨_, by rfl⟩
  have none_ : ∀ {a : Edns} {e : List UInt8}, EdnsLines a e → a.present = false → e = [] := by
    intro a e h hp
    unfold EdnsLines at h
    rwa [if_pos hp] at h
  cases pa : a.present with
  | false =>
    have := none_ he pa
    subst this
    cases pb : b.present with
    | false =>
      have := none_ hf pb
      subst this
      refine ⟨⟨by rw [pa, pb], fun h => by rw [pa] at h; cases h⟩, rfl, List.append_cancel_left (as := ascii "\n;; QUESTION SECTION:\n") (by simpa using h)⟩
    | true =>
      obtain ⟨z, -, -, rfl⟩ := edns_parts hf pb
      rw [hq, ho] at h
      simp at h
  | true =>
    obtain ⟨z, z1, z2, rfl⟩ := edns_parts he pa
    cases pb : b.present with
    | false =>
      have := none_ hf pb
      subst this
      rw [hq, ho] at h
      simp at h
    | true =>
      obtain ⟨w, w1, w2, rfl⟩ := edns_parts hf pb
      have h0 := h
      simp only [List.append_assoc, List.cons_append] at h
      have h := List.append_cancel_left h
      obtain ⟨k1, h⟩ := cut_at (digits_not _ _ (by decide)) (digits_not _ _ (by decide)) h
      have h := List.append_cancel_left h
      have nd : ∀ n : Nat, (59 : UInt8) ∉ (if n / 32768 % 2 = 1 then ascii " do" else []) := by
        intro n; split <;> decide
      obtain ⟨k2, h⟩ := cut_at (nd _) (nd _) h
      have h := List.append_cancel_left h
      have tail : ∀ {z x}, (z = [] ∨ ∃ v, z = 10 :: v) → ∃ v, z ++ (ascii "\n;; QUESTION SECTION:\n" ++ x) = 10 :: v := by
        rintro z x (rfl | ⟨v, rfl⟩)
        · exact ⟨_, by rw [hq]; rfl⟩
        · exact ⟨_, rfl⟩
      obtain ⟨v, hv⟩ := tail (x := x) z2
      obtain ⟨v', hv'⟩ := tail (x := y) w2
      have h1 := h
      rw [hv, hv'] at h1
      obtain ⟨k3, h1⟩ := cut_at (digits_not _ _ (by decide)) (digits_not _ _ (by decide)) h1
      have k4 : z ++ (ascii "\n;; QUESTION SECTION:\n" ++ x) = w ++ (ascii "\n;; QUESTION SECTION:\n" ++ y) := by rw [hv, hv', h1]
      rw [hq] at k4
      simp only [List.cons_append] at k4
      obtain ⟨k5, k6⟩ := commented_inj z1 w1 k4
      have kf : (a.flags / 32768 % 2 = 1 ↔ b.flags / 32768 % 2 = 1) := by
        by_cases fa : a.flags / 32768 % 2 = 1 <;> by_cases fb : b.flags / 32768 % 2 = 1 <;> simp [fa, fb, ascii] at k2 ⊢
      refine ⟨⟨by rw [pa, pb], fun _ => ⟨decText_inj k1, kf, decText_inj k3⟩⟩, by rw [k1, k2, k3, k5], by simpa using k6⟩

/-! ### The header -/

/-- The text of the flags. -/
def flagWords (q a t r ra ad cd : Bool) : List UInt8 :=
  (if q then ascii " qr" else []) ++ ((if a then ascii " aa" else []) ++ ((if t then ascii " tc" else []) ++
  ((if r then ascii " rd" else []) ++ ((if ra then ascii " ra" else []) ++ ((if ad then ascii " ad" else []) ++
  (if cd then ascii " cd" else []))))))

theorem flagWords_not (q a t r ra ad cd : Bool) : (59 : UInt8) ∉ flagWords q a t r ra ad cd := by
  revert q a t r ra ad cd
  decide +kernel

/-- Whether a word is in the text. -/
def hasWord (w : List UInt8) : List UInt8 → Bool
  | [] => false
  | c :: l => w.isPrefixOf (c :: l) || hasWord w l

theorem flagWords_read (q a t r ra ad cd : Bool) : hasWord (ascii " qr") (flagWords q a t r ra ad cd) = q ∧
    hasWord (ascii " aa") (flagWords q a t r ra ad cd) = a ∧ hasWord (ascii " tc") (flagWords q a t r ra ad cd) = t ∧
    hasWord (ascii " rd") (flagWords q a t r ra ad cd) = r ∧ hasWord (ascii " ra") (flagWords q a t r ra ad cd) = ra ∧
    hasWord (ascii " ad") (flagWords q a t r ra ad cd) = ad ∧ hasWord (ascii " cd") (flagWords q a t r ra ad cd) = cd := by
  revert q a t r ra ad cd
  decide +kernel

theorem opcodeText_inj {a b : Nat} (h : opcodeText a = opcodeText b) : a = b := by
  let P : List (Nat × List UInt8) := [(0, ascii "QUERY"), (1, ascii "IQUERY"), (2, ascii "STATUS"), (4, ascii "NOTIFY"), (5, ascii "UPDATE")]
  have key : ∀ n, (n, opcodeText n) ∈ P ∨ opcodeText n = decText n := by
    intro n
    unfold opcodeText
    split <;> simp [P]
  have same : ∀ p ∈ P, ∀ q ∈ P, p.2 = q.2 → p.1 = q.1 := by decide
  have dig : ∀ p ∈ P, ∃ c ∈ p.2, ¬ IsDigit c := by decide
  have num : ∀ (n m : Nat), (n, opcodeText n) ∈ P → opcodeText n ≠ decText m := by
    intro n m hp e
    obtain ⟨c, hc, hd⟩ := dig _ hp
    rw [show (n, opcodeText n).2 = opcodeText n from rfl, e] at hc
    exact hd ((decText_isDecimal m).2.1 c hc)
  rcases key a with ka | ka <;> rcases key b with kb | kb
  · exact same _ ka _ kb h
  · rw [kb] at h; exact absurd h (num _ _ ka)
  · rw [ka] at h; exact absurd h.symm (num _ _ kb)
  · rw [ka, kb] at h; exact decText_inj h

/-- The text of a response code: its name, otherwise the number. -/
def rcodeText (n : Nat) : List UInt8 := (rcodeToStr n).getD (decText n)

theorem rcodeText_not (n : Nat) : (44 : UInt8) ∉ rcodeText n := by
  unfold rcodeText
  cases h : rcodeToStr n with
  | none => exact digits_not _ _ (by decide)
  | some s =>
    have : ∀ x ∈ rcodeCases, (44 : UInt8) ∉ x.2 := by decide +kernel
    exact this (n, s) (switchOf_mem h)

theorem rcodeText_inj {a b : Nat} (h : rcodeText a = rcodeText b) : a = b := by
  have named : ∀ {n s}, rcodeToStr n = some s → strToRcode s = ok n := fun {n s} e => (C49_rcode_iff s n).mpr ⟨s, e, rfl⟩
  have nondig : ∀ {n s}, rcodeToStr n = some s → ∃ c ∈ s, ¬ IsDigit c := by
    intro n s e
    have : ∀ x ∈ rcodeCases, ∃ c ∈ x.2, ¬ IsDigit c := by decide +kernel
    exact this (n, s) (switchOf_mem e)
  have clash : ∀ {n s m}, rcodeToStr n = some s → s ≠ decText m := by
    rintro n s m e rfl
    obtain ⟨c, hc, hd⟩ := nondig e
    exact hd ((decText_isDecimal m).2.1 c hc)
  unfold rcodeText at h
  cases ea : rcodeToStr a with
  | none =>
    cases eb : rcodeToStr b with
    | none => rw [ea, eb] at h; exact decText_inj h
    | some t => rw [ea, eb] at h; exact absurd h.symm (clash eb)
  | some s =>
    cases eb : rcodeToStr b with
    | none => rw [ea, eb] at h; exact absurd h (clash ea)
    | some t =>
      rw [ea, eb] at h
      have h : s = t := h
      subst h
      have := named ea
      rw [named eb] at this
      exact (Outcome.ok.inj this).symm

/-- What the text of a message tells about its header: everything but the reserved bit (bit 6) and the low four bits of the
flags, which are part of the response code. -/
def Spec.SameHeader (a b : Message) : Prop :=
  a.id = b.id ∧ a.flags / 2 ^ 11 % 16 = b.flags / 2 ^ 11 % 16 ∧ a.rcode = b.rcode ∧
  ∀ k ∈ [15, 10, 9, 8, 7, 5, 4], (a.flags / 2 ^ k % 2 = 1 ↔ b.flags / 2 ^ k % 2 = 1)

theorem header_parts (m : Message) (n0 n1 n2 n3 : Nat) : headerText m n0 n1 n2 n3 =
    ascii ";; ->>HEADER<<- opcode: " ++ (opcodeText (m.flags / 2 ^ 11 % 16) ++ 44 :: (ascii " rcode: " ++ (rcodeText m.rcode ++ 44 ::
    (ascii " id: " ++ (decText m.id ++ 10 :: (ascii ";; flags:" ++
    (flagWords (m.flags / 2 ^ 15 % 2 = 1) (m.flags / 2 ^ 10 % 2 = 1) (m.flags / 2 ^ 9 % 2 = 1) (m.flags / 2 ^ 8 % 2 = 1)
      (m.flags / 2 ^ 7 % 2 = 1) (m.flags / 2 ^ 5 % 2 = 1) (m.flags / 2 ^ 4 % 2 = 1) ++ 59 :: (ascii " QUERY: " ++
    (decText n0 ++ 44 :: (ascii " ANSWER: " ++ (decText n1 ++ 44 :: (ascii " AUTHORITY: " ++ (decText n2 ++ 44 ::
    (ascii " ADDITIONAL: " ++ (decText n3 ++ [10]))))))))))))))) := by
  have e1 : ascii ", rcode: " = 44 :: ascii " rcode: " := by decide
  have e2 : ascii ", id: " = 44 :: ascii " id: " := by decide
  have e3 : ascii "\n;; flags:" = 10 :: ascii ";; flags:" := by decide
  have e4 : ascii "; QUERY: " = 59 :: ascii " QUERY: " := by decide
  have e5 : ascii ", ANSWER: " = 44 :: ascii " ANSWER: " := by decide
  have e6 : ascii ", AUTHORITY: " = 44 :: ascii " AUTHORITY: " := by decide
  have e7 : ascii ", ADDITIONAL: " = 44 :: ascii " ADDITIONAL: " := by decide
  have e8 : ascii "\n" = [10] := by decide
  unfold headerText flagWords rcodeText
  dsimp only
  rw [e1, e2, e3, e4, e5, e6, e7, e8]
  simp only [List.append_assoc, List.cons_append, decide_eq_true_eq]

theorem header_inj {a b : Message} {n0 n1 n2 n3 k0 k1 k2 k3 : Nat} {x y : List UInt8}
    (h : headerText a n0 n1 n2 n3 ++ x = headerText b k0 k1 k2 k3 ++ y) : Spec.SameHeader a b ∧ x = y := by
  rw [header_parts, header_parts] at h
  simp only [List.append_assoc, List.cons_append, List.nil_append] at h
  have dn : ∀ n : Nat, (44 : UInt8) ∉ decText n := fun n => digits_not n _ (by decide)
  have d10 : ∀ n : Nat, (10 : UInt8) ∉ decText n := fun n => digits_not n _ (by decide)
  have on : ∀ n : Nat, (44 : UInt8) ∉ opcodeText n := by
    intro n
    unfold opcodeText
    split <;> first | decide | exact dn _
  have h := List.append_cancel_left h
  obtain ⟨a1, h⟩ := cut_at (on _) (on _) h
  have h := List.append_cancel_left h
  obtain ⟨a2, h⟩ := cut_at (rcodeText_not _) (rcodeText_not _) h
  have h := List.append_cancel_left h
  obtain ⟨a3, h⟩ := cut_at (d10 _) (d10 _) h
  have h := List.append_cancel_left h
  obtain ⟨a4, h⟩ := cut_at (flagWords_not _ _ _ _ _ _ _) (flagWords_not _ _ _ _ _ _ _) h
  have h := List.append_cancel_left h
  obtain ⟨-, h⟩ := cut_at (dn _) (dn _) h
  have h := List.append_cancel_left h
  obtain ⟨-, h⟩ := cut_at (dn _) (dn _) h
  have h := List.append_cancel_left h
  obtain ⟨-, h⟩ := cut_at (dn _) (dn _) h
  have h := List.append_cancel_left h
  obtain ⟨-, h⟩ := cut_at (d10 _) (d10 _) h
  refine ⟨⟨decText_inj a3, opcodeText_inj a1, rcodeText_inj a2, ?_⟩, h⟩
  obtain ⟨f1, f2, f3, f4, f5, f6, f7⟩ := flagWords_read (decide (a.flags / 2 ^ 15 % 2 = 1)) (decide (a.flags / 2 ^ 10 % 2 = 1))
    (decide (a.flags / 2 ^ 9 % 2 = 1)) (decide (a.flags / 2 ^ 8 % 2 = 1)) (decide (a.flags / 2 ^ 7 % 2 = 1))
    (decide (a.flags / 2 ^ 5 % 2 = 1)) (decide (a.flags / 2 ^ 4 % 2 = 1))
  obtain ⟨g1, g2, g3, g4, g5, g6, g7⟩ := flagWords_read (decide (b.flags / 2 ^ 15 % 2 = 1)) (decide (b.flags / 2 ^ 10 % 2 = 1))
    (decide (b.flags / 2 ^ 9 % 2 = 1)) (decide (b.flags / 2 ^ 8 % 2 = 1)) (decide (b.flags / 2 ^ 7 % 2 = 1))
    (decide (b.flags / 2 ^ 5 % 2 = 1)) (decide (b.flags / 2 ^ 4 % 2 = 1))
  rw [a4] at f1 f2 f3 f4 f5 f6 f7
  intro k hk
  simp only [List.mem_cons, List.not_mem_nil, or_false] at hk
  rcases hk with rfl | rfl | rfl | rfl | rfl | rfl | rfl
  · exact decide_eq_decide.mp (f1.symm.trans g1)
  · exact decide_eq_decide.mp (f2.symm.trans g2)
  · exact decide_eq_decide.mp (f3.symm.trans g3)
  · exact decide_eq_decide.mp (f4.symm.trans g4)
  · exact decide_eq_decide.mp (f5.symm.trans g5)
  · exact decide_eq_decide.mp (f6.symm.trans g6)
  · exact decide_eq_decide.mp (f7.symm.trans g7)

/-- **C120.** Two packets that are written as the same text have the same id, operation code, response code and flags (but for
the reserved bit), the same EDNS version, DO flag and payload size, and in every section the same records in the same order. -/
theorem C120_message_partial {mem mem' : List UInt8} {len len' : Nat} {m m' : Message}
    (hm : len ≤ mem.length) (h64 : len < 2 ^ 64) (hlen : m.Fits) (hno : SvcNoLong (mem.take len)) (h : parseMessage mem len = ok m)
    (hx : Spec.AllExpressible m)
    (hm' : len' ≤ mem'.length) (h64' : len' < 2 ^ 64) (hlen' : m'.Fits) (hno' : SvcNoLong (mem'.take len'))
    (h' : parseMessage mem' len' = ok m') (hx' : Spec.AllExpressible m') (e : messageToStr m = messageToStr m') :
    Spec.SameHeader m m' ∧ Spec.SameEdns m.edns m'.edns ∧
    ∀ i a a', m.sections[i]? = some a → m'.sections[i]? = some a' → List.Forall₂ (Spec.SameRecord i) a.rrs a'.rrs := by
  obtain ⟨s0, s1, s2, s3, ed, t0, t1, t2, t3, hs, he, l0, l1, l2, l3, ht⟩ := C62_message_text_partial mem len m hm h64 hlen hno h
  obtain ⟨s0', s1', s2', s3', ed', t0', t1', t2', t3', hs', he', l0', l1', l2', l3', ht'⟩ :=
    C62_message_text_partial mem' len' m' hm' h64' hlen' hno' h'
  rw [ht, ht'] at e
  have e := Outcome.ok.inj e
  simp only [List.append_assoc] at e
  obtain ⟨hh, e⟩ := header_inj e
  obtain ⟨hd, -, e⟩ := edns_inj he he' e
  have r := fun i a ha => text_records (i := i) (a := a) hm h64 hlen hno h hx ha
  have r' := fun i a ha => text_records (i := i) (a := a) hm' h64' hlen' hno' h' hx' ha
  have q1 : ∃ z, ascii "\n;; ANSWER SECTION:\n" = 10 :: z := ⟨_, by rfl⟩
  have q2 : ∃ z, ascii "\n;; AUTHORITY SECTION:\n" = 10 :: z := ⟨_, by rfl⟩
  have q3 : ∃ z, ascii "\n;; ADDITIONAL SECTION:\n" = 10 :: z := ⟨_, by rfl⟩
  have q : ∀ {s : List UInt8}, (∃ z, s = 10 :: z) → ∀ x, (s ++ x = [] ∨ ∃ z, s ++ x = 10 :: z) := by
    rintro s ⟨z, rfl⟩ x; exact .inr ⟨_, rfl⟩
  obtain ⟨f0, e⟩ := lines_inj (q q1 _) (q q1 _) (r 0 s0 (by simp [hs])) (r' 0 s0' (by simp [hs'])) l0 l0' e
  have e := List.append_cancel_left e
  obtain ⟨f1, e⟩ := lines_inj (q q2 _) (q q2 _) (r 1 s1 (by simp [hs])) (r' 1 s1' (by simp [hs'])) l1 l1' e
  have e := List.append_cancel_left e
  obtain ⟨f2, e⟩ := lines_inj (q q3 _) (q q3 _) (r 2 s2 (by simp [hs])) (r' 2 s2' (by simp [hs'])) l2 l2' e
  have e := List.append_cancel_left e
  obtain ⟨f3, -⟩ := lines_inj (x := []) (y := []) (.inl rfl) (.inl rfl) (r 3 s3 (by simp [hs])) (r' 3 s3' (by simp [hs'])) l3 l3' (by rw [e])
  refine ⟨hh, hd, fun i a a' ha ha' => ?_⟩
  rw [hs] at ha
  rw [hs'] at ha'
  match i with
  | 0 => cases ha; cases ha'; exact f0
  | 1 => cases ha; cases ha'; exact f1
  | 2 => cases ha; cases ha'; exact f2
  | 3 => cases ha; cases ha'; exact f3
  | i + 4 => simp at ha

/-- The hypotheses of both theorems are met by `sampleMsg`. -/
theorem sample_expressible : Spec.AllExpressible sampleParsed := by
  intro a ha r hr d hd
  have key : Expressible 1 1 [1, 2, 3, 4] :=
    (C44_round_trip_iff_partial [1, 2, 3, 4] 0 4 0 4 1 1 ⟨4, [1, 2, 3, 4]⟩ (by decide) (by decide) (by decide) (by decide) (by decide)
      (by simp) (by decide +kernel) (by decide)).mp ⟨ascii "1.2.3.4", by decide +kernel, by decide +kernel⟩
  have hall : ∀ a ∈ sampleParsed.sections, ∀ r ∈ a.rrs, r.rdata = none ∨ (r.rrtype = 1 ∧ r.rrclass = 1 ∧ r.rdata = some ⟨4, [1, 2, 3, 4]⟩) := by
    decide +kernel
  rcases hall a ha r hr with h | ⟨h1, h2, h3⟩
  · rw [h] at hd; cases hd
  · rw [h3] at hd; cases hd; rw [h1, h2]; exact key

example (mem' : List UInt8) (m' : Message) (hm' : mem'.length ≤ 65305) (hno' : SvcNoLong mem')
    (h' : parseMessage mem' mem'.length = ok m') (hx' : Spec.AllExpressible m') (e : messageToStr m' = messageToStr sampleParsed) :
    m'.id = 0x1234 ∧ m'.rcode = 0 := by
  have ht' : mem'.take mem'.length = mem' := List.take_length
  have ht : sampleMsg.take 46 = sampleMsg := by decide
  have := (C120_message_partial (Nat.le_refl _) (Nat.lt_of_le_of_lt hm' (by decide))
    (C62_short_partial mem' _ m' (Nat.le_refl _) hm' (by rw [ht']; exact hno') h') (by rw [ht']; exact hno') h' hx'
    (show 46 ≤ sampleMsg.length by decide) (by decide)
    (C62_short_partial sampleMsg 46 _ (by decide) (by decide) (by rw [ht]; exact sample_svc) sample_parse) (by rw [ht]; exact sample_svc)
    sample_parse sample_expressible e).1
  unfold Spec.SameHeader at this
  exact ⟨this.1, this.2.2.1⟩

/-- What a packet with a single answer `. 0 CH A` is parsed to. -/
def chParsed (d : List UInt8) : Message :=
  { id := 0, flags := 0, rcode := 0, edns := Edns.zero
    sections := [⟨[], []⟩, ⟨[⟨0, 1, 3, ⟨1, [0]⟩, some ⟨4, d⟩⟩], [⟨0, 1, 3, ⟨1, [0]⟩, [⟨4, d⟩]⟩]⟩, ⟨[], []⟩, ⟨[], []⟩] }

/-- What a packet without records (but for an OPT record) is parsed to. -/
def bareParsed (flags : Nat) (e : Edns) : Message :=
  { id := 0, flags := flags, rcode := 0, edns := e, sections := [⟨[], []⟩, ⟨[], []⟩, ⟨[], []⟩, ⟨[], []⟩] }

/-- **C120, what the text does not tell.** Of the header the reserved bit (bit 6 of the flags); of the rdata of a type of class IN in
another class everything (here an address of class CH); and the flags of the OPT record but for DO. -/
theorem C120_message_violated :
    (parseMessage [0, 0, 0, 0, 0, 0, 0, 0, 0, 0, 0, 0] 12 = ok (bareParsed 0 Edns.zero) ∧
      parseMessage [0, 0, 0, 64, 0, 0, 0, 0, 0, 0, 0, 0] 12 = ok (bareParsed 64 Edns.zero) ∧
      messageToStr (bareParsed 0 Edns.zero) = messageToStr (bareParsed 64 Edns.zero)) ∧
    (parseMessage [0, 0, 0, 0, 0, 0, 0, 1, 0, 0, 0, 0, 0, 0, 1, 0, 3, 0, 0, 0, 0, 0, 4, 1, 2, 3, 4] 27 = ok (chParsed [1, 2, 3, 4]) ∧
      parseMessage [0, 0, 0, 0, 0, 0, 0, 1, 0, 0, 0, 0, 0, 0, 1, 0, 3, 0, 0, 0, 0, 0, 4, 5, 6, 7, 8] 27 = ok (chParsed [5, 6, 7, 8]) ∧
      messageToStr (chParsed [1, 2, 3, 4]) = messageToStr (chParsed [5, 6, 7, 8])) ∧
    (parseMessage [0, 0, 0, 0, 0, 0, 0, 0, 0, 0, 0, 1, 0, 0, 41, 2, 0, 0, 0, 0, 0, 0, 0] 23 =
        ok (bareParsed 0 ⟨true, 0, 0, 512, some ⟨0, []⟩⟩) ∧
      parseMessage [0, 0, 0, 0, 0, 0, 0, 0, 0, 0, 0, 1, 0, 0, 41, 2, 0, 0, 0, 64, 0, 0, 0] 23 =
        ok (bareParsed 0 ⟨true, 0, 16384, 512, some ⟨0, []⟩⟩) ∧
      messageToStr (bareParsed 0 ⟨true, 0, 0, 512, some ⟨0, []⟩⟩) = messageToStr (bareParsed 0 ⟨true, 0, 16384, 512, some ⟨0, []⟩⟩)) := by
  decide +kernel

end Wdns
