import Verif.Props.Faults
import Verif.Props.Pipeline
import Verif.Props.LengthWrap
import Verif.Props.Behind

/-!
# C128: packets cut short, and packets with something appended; C79 for all packets
-/

namespace Wdns
open Outcome Wdns.Spec

theorem getElem?_more {a b : List UInt8} {i : Nat} {c : UInt8} (h : a[i]? = some c) : (a ++ b)[i]? = some c := by
  have hi := (List.getElem?_eq_some_iff.mp h).1
  rw [List.getElem?_append_left hi]; exact h

theorem encEnd_append {a b : List UInt8} {o e : Nat} (h : EncEnd a o e) : EncEnd (a ++ b) o e := by
  induction h with
  | root h => exact .root (getElem?_more h)
  | ptr h1 h2 => exact .ptr (getElem?_more h1) h2
  | label h1 h2 h3 _ ih => exact .label (getElem?_more h1) h2 h3 ih

theorem denotes_functional {msg : List UInt8} {base o : Nat} {n : Name} (h : Denotes msg base o n) : ∀ {n'}, Denotes msg base o n' → n = n' := by
  induction h with
  | root h => intro n' h'; exact (denotes_zero h' h).symm
  | @label o c n h1 h2 h3 h4 _ ih =>
    intro n' h'
    cases h' with
    | root h => rw [h1] at h; cases h; simp at h2
    | label g1 _ _ _ g5 => rw [h1] at g1; cases g1; rw [ih g5]
    | ptr g1 g2 => rw [h1] at g1; cases g1; omega
  | @ptr o hi lo n h1 h2 h3 h4 _ ih =>
    intro n' h'
    cases h' with
    | root h => rw [h1] at h; cases h; simp at h2
    | label g1 _ g3 => rw [h1] at g1; cases g1; omega
    | ptr g1 _ g3 _ g5 => rw [h1] at g1; rw [h3] at g3; cases g1; cases g3; exact ih g5

theorem slice_append {a b : List UInt8} {o o' : Nat} (h : o' ≤ a.length) : ((a ++ b).drop o).take (o' - o) = (a.drop o).take (o' - o) := by
  by_cases ho : o ≤ a.length
  · rw [List.drop_append_of_le_length ho, List.take_append_of_le_length (by rw [List.length_drop]; omega)]
  · rw [show o' - o = 0 by omega]; simp

theorem layout_append {a b : List UInt8} {base e o : Nat} {ts : List Rdf} {x : List UInt8} (he : e ≤ a.length) (h : Layout a base e ts o x) :
    Layout (a ++ b) base e ts o x := by
  induction h with
  | done => exact .done
  | name h1 h2 h3 h4 h5 h6 _ ih => exact .name h1 h2 (denotes_append h3) h4 (encEnd_append h5) h6 ih
  | @field t ts o o' rest h1 h2 h3 h4 h5 _ ih =>
    have := Layout.field (msg := a ++ b) (base := base) (e := e) (t := t) h1 h2 h3 (by rw [slice_append (by omega)]; exact h4) h5 ih
    rwa [slice_append (by omega)] at this

/-- A name that is completed by the octet behind the packet is not inside an rdata that ends there. -/
theorem borrows_not_layout {a b : List UInt8} {len o : Nat} {ts : List Rdf} {x x' : List UInt8} (hl : len ≤ a.length) (h : Borrows a len ts o x) :
    ¬ Layout (a ++ b) 0 len ts o x' := by
  induction h generalizing x' with
  | here h1 h2 h3 h4 h5 =>
    intro h
    cases h with
    | done => omega
    | name g1 g2 g3 g4 g5 g6 => have := encEnd_functional (encEnd_append h5) g5; omega
    | field _ _ _ g => exact fieldOK_noName g h2
  | name h2 h3 h4 h5 h6 h7 ih =>
    intro h
    have := borrows_lt h7
    have := encEnd_lt h5
    cases h with
    | done => omega
    | name g1 g2 g3 g4 g5 g6 g7 => obtain rfl := encEnd_functional (encEnd_append h5) g5; exact ih g7
    | field _ _ _ g => exact fieldOK_noName g h2
  | @field t ts o o' rest h1 h2 h3 h4 h5 ih =>
    intro h
    have := borrows_lt h5
    cases h with
    | done => omega
    | name _ g => exact fieldOK_noName h3 g
    | @field _ _ _ o'' _ g1 g2 g3 g4 g5 g6 =>
      rw [slice_append (by omega)] at g4
      have e := (fieldOK_unique h3 g4 (rest := (a.drop o').take (len - o')) (rest' := (a.drop o'').take (len - o'')) (fun h => absurd h h4) (fun h => absurd h h4) (by
        have split : ∀ k, o ≤ k → k ≤ len → (a.drop o).take (k - o) ++ (a.drop k).take (len - k) = (a.drop o).take (len - o) := by
          intro k hk hk'
          rw [show len - o = (k - o) + (len - k) by omega, List.take_add, List.drop_drop, show o + (k - o) = k by omega]
        rw [split o' h1 h2, split o'' g2 g3])).1
      have := congrArg List.length e
      rw [take_drop_length _ _ _ (by omega), take_drop_length _ _ _ (by omega)] at this
      obtain rfl : o' = o'' := by omega
      exact ih g6

theorem borrows_append {a b : List UInt8} {len o : Nat} {ts : List Rdf} {x : List UInt8} (hl : len ≤ a.length) (h : Borrows a len ts o x) :
    Borrows (a ++ b) len ts o x := by
  induction h with
  | here h1 h2 h3 h4 h5 => exact .here h1 h2 (denotes_append h3) h4 (encEnd_append h5)
  | name h2 h3 h4 h5 h6 _ ih => exact .name h2 (denotes_append h3) h4 (encEnd_append h5) h6 ih
  | @field t ts o o' rest h1 h2 h3 h4 _ ih =>
    have := Borrows.field (buf := a ++ b) (len := len) (t := t) h1 h2 (by rw [slice_append (by omega)]; exact h3) h4 ih
    rwa [slice_append (by omega)] at this

theorem window_more {m t : List UInt8} {l1 l2 : Nat} (h : l1 ≤ l2) : ∃ c, (m ++ t).take (l2 + 1) = m.take (l1 + 1) ++ c := by
  have h1 : m.take (l1 + 1) <+: m ++ t := (List.take_prefix _ _).trans (List.prefix_append _ _)
  obtain ⟨c, hc⟩ := List.prefix_of_prefix_length_le h1 (List.take_prefix (l2 + 1) (m ++ t)) (by simp only [List.length_take, List.length_append]; omega)
  exact ⟨c, hc.symm⟩

theorem u16At_more {m t : List UInt8} {i : Nat} (h : i + 1 < m.length) : u16At (m ++ t) i = u16At m i := by
  unfold u16At
  simp only [List.getD, List.getElem?_append_left h, List.getElem?_append_left (show i < m.length by omega)]

theorem u32At_more {m t : List UInt8} {i : Nat} (h : i + 3 < m.length) : u32At (m ++ t) i = u32At m i := by
  unfold u32At
  simp only [List.getD, List.getElem?_append_left h, List.getElem?_append_left (show i < m.length by omega), List.getElem?_append_left (show i + 1 < m.length by omega),
    List.getElem?_append_left (show i + 2 < m.length by omega)]

theorem fills_append {m t : List UInt8} {e i : Nat} (h : Fills m e i) : Fills (m ++ t) e i := by
  induction h with
  | done => exact .done
  | more h1 h2 _ ih => exact .more h1 (getElem?_more h2) ih

theorem svcRun_append {m t : List UInt8} {e i j : Nat} (he : e ≤ m.length) (h : SvcRun m e i j) : SvcRun (m ++ t) e i j := by
  induction h with
  | here => exact .here
  | @step i j h1 h2 h3 _ ih =>
    have e1 : u16At (m ++ t) i = u16At m i := u16At_more (by omega)
    have e2 : u16At (m ++ t) (i + 2) = u16At m (i + 2) := u16At_more (by omega)
    have e3 : paramSize (m ++ t) i = paramSize m i := by unfold paramSize; rw [e2]
    refine .step h1 (by rw [e3]; exact h2) ?_ (by rw [e3]; exact ih)
    rw [e1, e2]
    exact ⟨h3.1, fun h => ⟨(h3.2 h).1, fills_append (h3.2 h).2⟩⟩

theorem rdataMem_more {m t : List UInt8} {l1 l2 o rdlen ty cls : Nat} {x : List UInt8} (hm : l1 ≤ m.length) (hl : l1 ≤ l2) (hf : o + rdlen ≤ l1)
    (h : RdataMem m l1 o rdlen ty cls x) : RdataMem (m ++ t) l2 o rdlen ty cls x ∨
      (o + rdlen = l1 ∧ l1 ≠ l2 ∧ ∃ d, recordDescr ty = some d ∧ d.applies cls = true ∧ Borrows (m.take (l1 + 1)) l1 d.types o x) := by
  obtain ⟨c, hc⟩ := window_more (m := m) (t := t) hl
  have hlen : l1 ≤ (m.take (l1 + 1)).length := by rw [List.length_take]; omega
  rcases h with (⟨d, h1, h2, h | ⟨h3, h⟩⟩ | ⟨h1, h2⟩) | ⟨n, i, ⟨h1, h2, h3, h4, h5, h6, h7, h8⟩, h9⟩
  · exact .inl (.inl (.inl ⟨d, h1, h2, .inl (by rw [hc]; exact layout_append (by omega) h)⟩))
  · by_cases he : l1 = l2
    · subst he
      exact .inl (.inl (.inl ⟨d, h1, h2, .inr ⟨h3, by rw [hc]; exact borrows_append hlen h⟩⟩))
    · exact .inr ⟨h3, he, d, h1, h2, h⟩
  · refine .inl (.inl (.inr ⟨h1, ?_⟩))
    have := slice_append (a := m.take (l1 + 1)) (b := c) (o := o) (o' := o + rdlen) (by omega)
    rw [show o + rdlen - o = rdlen by omega] at this
    rw [hc, h2, this]
  · have e1 := slice_append (a := m) (b := t) (o := o) (o' := o + 2) (by omega)
    have e2 := slice_append (a := m) (b := t) (o := i) (o' := o + rdlen) (by omega)
    rw [show o + 2 - o = 2 by omega] at e1
    refine .inl (.inr ⟨n, i, ⟨h1, h2, h3, by rw [hc]; exact denotes_append h4, h5, by rw [hc]; exact encEnd_append h6, h7, svcRun_append (by omega) h8⟩, ?_⟩)
    rw [e1, e2]; exact h9

theorem borrows_not_rdataMem {m t : List UInt8} {l1 l2 o rdlen ty cls : Nat} {x x' : List UInt8} {d : Descr} (hm : l1 ≤ m.length) (hl : l1 ≤ l2) (hf : o + rdlen = l1)
    (hne : l1 ≠ l2) (hd : recordDescr ty = some d) (ha : d.applies cls = true) (hb : Borrows (m.take (l1 + 1)) l1 d.types o x) :
    ¬ RdataMem (m ++ t) l2 o rdlen ty cls x' := by
  obtain ⟨c, hc⟩ := window_more (m := m) (t := t) hl
  have hlen : l1 ≤ (m.take (l1 + 1)).length := by rw [List.length_take]; omega
  rintro ((⟨d', h1, h2, h | ⟨h3, h⟩⟩ | ⟨h1, h2⟩) | ⟨n, i, ⟨h1, h2, h3, h4, h5, h6, h7, h8⟩, h9⟩)
  · rw [hd] at h1; cases h1
    rw [hc, hf] at h
    exact borrows_not_layout hlen hb h
  · omega
  · rw [h1 d hd] at ha; cases ha
  · have hds : d.types = [.int16, .name, .svcparams] := by
      have hall : ∀ ty ∈ [64, 65], ∀ d ∈ recordDescr ty, d.types = [.int16, .name, .svcparams] := by decide +kernel
      exact hall ty (by simp; exact h1) d hd
    rw [hds] at hb
    rw [hc] at h6
    generalize hts : ([.int16, .name, .svcparams] : List Rdf) = ts at hb
    cases hb with
    | here _ h => cases hts; exact h
    | name h => cases hts; exact h
    | @field _ _ _ o' _ g1 g2 g3 g4 g5 =>
      cases hts
      have e : o' = o + 2 := by
        have := borrows_lt g5
        have g3' : ((m.take (l1 + 1)).drop o |>.take (o' - o)).length = 2 := g3
        rw [take_drop_length _ _ _ (by omega)] at g3'
        omega
      subst e
      generalize hts : ([.name, .svcparams] : List Rdf) = ts at g5
      cases g5 with
      | here _ _ _ _ k => have := encEnd_functional (encEnd_append k) h6; omega
      | name k1 k2 k3 k4 k5 k6 =>
        cases hts
        generalize hts : ([.svcparams] : List Rdf) = ts at k6
        cases k6 with
        | here _ k => cases hts; exact k
        | name k => cases hts; exact k
        | field _ _ _ k => cases hts; exact k trivial
      | field _ _ k => cases hts; exact k

theorem rrMem_same {m t : List UInt8} {l1 l2 sec o o1 o2 : Nat} {r1 r2 : RR} (hm : l1 ≤ m.length) (hl : l1 ≤ l2) (hm2 : l2 ≤ (m ++ t).length) (h64 : l2 < 2 ^ 64)
    (h1 : RRMem m l1 sec o o1 r1) (h2 : RRMem (m ++ t) l2 sec o o2 r2) : o1 = o2 ∧ r1 = r2 := by
  obtain ⟨c, hc⟩ := window_more (m := m) (t := t) hl
  cases h1 with
  | @question _ e n a1 a2 a3 a4 =>
    have := encEnd_lt a3
    cases h2 with
    | @question _ e' n' b1 b2 b3 b4 =>
      rw [hc] at b1 b3
      obtain rfl := encEnd_functional (encEnd_append a3) b3
      obtain rfl := denotes_functional (denotes_append a1) b1
      rw [u16At_more (by omega), u16At_more (by omega)]
      exact ⟨rfl, rfl⟩
    | record h => exact absurd rfl h
  | @record _ _ e n x a0 a1 a2 a3 a4 a5 =>
    have := encEnd_lt a3
    cases h2 with
    | question => exact absurd rfl a0
    | @record _ _ e' n' x' b0 b1 b2 b3 b4 b5 =>
      rw [hc] at b1 b3
      obtain rfl := encEnd_functional (encEnd_append a3) b3
      obtain rfl := denotes_functional (denotes_append a1) b1
      rw [u16At_more (i := e + 8) (by omega)] at b4
      rw [u16At_more (i := e + 8) (by omega), u16At_more (i := e) (by omega), u16At_more (i := e + 2) (by omega)] at b5
      rw [u16At_more (i := e + 8) (by omega), u16At_more (i := e) (by omega), u16At_more (i := e + 2) (by omega), u32At_more (by omega)]
      refine ⟨rfl, ?_⟩
      rcases rdataMem_more (t := t) hm hl a4 a5 with h | ⟨h3, h4, d, h5, h6, h7⟩
      · have k1 := (C40_schema_exactly (m ++ t) l2 _ _ _ _ _ hm2 h64 b4 (u16At_lt _ _)).mpr ⟨_, h, rfl⟩
        have k2 := (C40_schema_exactly (m ++ t) l2 _ _ _ _ _ hm2 h64 b4 (u16At_lt _ _)).mpr ⟨_, b5, rfl⟩
        rw [k1, ok.injEq, CRdata.mk.injEq] at k2
        rw [k2.2]
      · exact absurd b5 (borrows_not_rdataMem hm hl h3 h4 h5 h6 h7)

theorem recsMem_same {m t : List UInt8} {l1 l2 sec n o o1 : Nat} {a : List RR} (hm : l1 ≤ m.length) (hl : l1 ≤ l2) (hm2 : l2 ≤ (m ++ t).length) (h64 : l2 < 2 ^ 64)
    (h1 : RecsMem m l1 sec n o a o1) : ∀ {b o2}, RecsMem (m ++ t) l2 sec n o b o2 → (a = b ∧ o1 = o2) ∨ (o1 = l1 ∧ a <+: b) := by
  induction h1 with
  | zero => intro b o2 h; cases h; exact .inl ⟨rfl, rfl⟩
  | stop => intro b o2 h; exact .inr ⟨rfl, List.nil_prefix⟩
  | cons h1 h2 h3 ih =>
    intro b o2 h
    generalize hk : l2 = l at h
    cases h with
    | stop => omega
    | cons g1 g2 g3 =>
      subst hk
      obtain ⟨rfl, rfl⟩ := rrMem_same hm hl hm2 h64 h2 g2
      rcases ih g3 with ⟨rfl, rfl⟩ | ⟨rfl, h⟩
      · exact .inl ⟨rfl, rfl⟩
      · exact .inr ⟨rfl, (List.cons_prefix_cons).mpr ⟨rfl, h⟩⟩

theorem secStart_same {m t : List UInt8} {l1 l2 sec o1 : Nat} {a : List (Nat × RR)} (hm : l1 ≤ m.length) (hl : l1 ≤ l2) (hm2 : l2 ≤ (m ++ t).length) (h64 : l2 < 2 ^ 64)
    (h12 : 12 ≤ l1) (hs : sec ≤ 4) (h1 : SecStart m l1 sec o1 a) : ∀ {b o2}, SecStart (m ++ t) l2 sec o2 b → (a = b ∧ o1 = o2) ∨ (o1 = l1 ∧ a <+: b) := by
  induction h1 with
  | first => intro b o2 h; cases h; exact .inl ⟨rfl, rfl⟩
  | @next sec o rrs o' all h1 h2 ih =>
    intro b o2 h
    cases h with
    | @next _ p rrs' p' all' g1 g2 =>
      rcases ih (by omega) g1 with ⟨rfl, rfl⟩ | ⟨ho, h⟩
      · rw [u16At_more (by omega)] at g2
        rcases recsMem_same hm hl hm2 h64 h2 g2 with ⟨rfl, rfl⟩ | ⟨rfl, h⟩
        · exact .inl ⟨rfl, rfl⟩
        · exact .inr ⟨rfl, (List.prefix_append_right_inj _).mpr (h.map _)⟩
      · have : rrs = [] ∧ o' = l1 := by
          generalize u16At m (4 + 2 * sec) = k at h2
          generalize hq : l1 = q at h2
          cases h2 with
          | zero => exact ⟨rfl, by omega⟩
          | stop => exact ⟨rfl, rfl⟩
          | cons h => omega
        obtain ⟨rfl, rfl⟩ := this
        exact .inr ⟨rfl, by simpa using h.trans (List.prefix_append _ _)⟩

theorem sectionOf_prefix {a b : List (Nat × RR)} (h : a <+: b) (i : Nat) : sectionOf a i <+: sectionOf b i := by
  obtain ⟨c, rfl⟩ := h
  unfold sectionOf
  refine List.IsPrefix.map _ (List.IsPrefix.filter _ ?_)
  by_cases hx : ∃ x ∈ a, isOpt x = true
  · obtain ⟨x, hx, hp⟩ := hx
    rw [List.eraseP_append_left hp _ hx]
    exact List.prefix_append _ _
  · have hn : ∀ x ∈ a, ¬ isOpt x = true := fun x hx' hp => hx ⟨x, hx', hp⟩
    rw [List.eraseP_append_right _ hn, List.eraseP_of_forall_not hn]
    exact List.prefix_append _ _

theorem find_prefix {a b : List (Nat × RR)} (h : a <+: b) {x} (hx : a.find? isOpt = some x) : b.find? isOpt = some x := by
  obtain ⟨c, rfl⟩ := h
  rw [List.find?_append, hx]; rfl

theorem sectionIs_rrs {i : Nat} {xs ys : List RR} {a b : RRsetArray} (h : xs <+: ys) (ha : SectionIs i xs a) (hb : SectionIs i ys b) :
    a.rrs.map RR.view <+: b.rrs.map RR.view := by
  unfold SectionIs at ha hb
  split at ha
  · rename_i hi; rw [if_pos hi] at hb; rw [ha.rrs_eq, hb.rrs_eq]; exact h.map _
  · rename_i hi; rw [if_neg hi] at hb; rw [ha.rrs_eq, hb.rrs_eq]; exact h.map _

/-- **C128.** A packet of `len₁` octets and a longer one that begins with them, both accepted (`mem₁` is the readable memory from the first one on; the second one is
in the same memory, or in one that begins alike): the same identifier and flags, in every section the records of the shorter packet are the first records of the longer one, and
if the shorter one has an OPT record, the EDNS parameters and the response code are the same. -/
theorem C128_cut (mem₁ t : List UInt8) (len₁ len₂ : Nat) (m₁ m₂ : Message) (hm₁ : len₁ ≤ mem₁.length) (hl : len₁ ≤ len₂) (hm₂ : len₂ ≤ (mem₁ ++ t).length)
    (h64 : len₂ < 2 ^ 64) (h₁ : parseMessage mem₁ len₁ = ok m₁) (h₂ : parseMessage (mem₁ ++ t) len₂ = ok m₂) :
    m₁.id = m₂.id ∧ m₁.flags = m₂.flags ∧ (m₁.edns.present = true → m₁.edns = m₂.edns ∧ m₁.rcode = m₂.rcode) ∧
    ∀ (i : Nat) (a b : RRsetArray), m₁.sections[i]? = some a → m₂.sections[i]? = some b → a.rrs.map RR.view <+: b.rrs.map RR.view := by
  obtain ⟨h12, all₁, r1, ⟨i1, f1, e1, -, s1⟩, c1⟩ := parseMessage_ok hm₁ h₁
  obtain ⟨h12', all₂, r2, ⟨i2, f2, e2, -, s2⟩, c2⟩ := parseMessage_ok hm₂ h₂
  obtain ⟨o1, k1⟩ := (readAll_mem_iff hm₁ (by omega) h12).mp r1
  obtain ⟨o2, k2⟩ := (readAll_mem_iff hm₂ h64 h12').mp r2
  have hp : all₁ <+: all₂ := by
    rcases secStart_same hm₁ hl hm₂ h64 h12 (Nat.le_refl _) k1 k2 with ⟨rfl, _⟩ | ⟨_, h⟩
    · exact List.prefix_rfl
    · exact h
  refine ⟨by rw [i1, i2, u16At_more (by omega)], by rw [f1, f2, u16At_more (by omega)], ?_, ?_⟩
  · intro hpr
    cases hf : all₁.find? isOpt with
    | none => rw [hf] at e1; rw [e1.1] at hpr; cases hpr
    | some x =>
      have hf' := find_prefix hp hf
      rw [hf] at e1
      rw [hf'] at e2
      simp only at e1 e2
      exact ⟨by rw [e1, e2], by rw [c1 x.1 x.2 hf, c2 x.1 x.2 hf', u16At_more (by omega)]⟩
  · intro i a b ha hb
    exact sectionIs_rrs (sectionOf_prefix hp i) (s1 i a ha) (s2 i b hb)

/-- **C128**, for a packet and its first `k` octets, each by itself. -/
theorem C128_cut_alone (p : List UInt8) (k : Nat) (m₁ m₂ : Message) (hk : k ≤ p.length) (h64 : p.length < 2 ^ 64) (h₁ : parseMessage (p.take k) k = ok m₁)
    (h₂ : parseMessage p p.length = ok m₂) :
    m₁.id = m₂.id ∧ m₁.flags = m₂.flags ∧ (m₁.edns.present = true → m₁.edns = m₂.edns ∧ m₁.rcode = m₂.rcode) ∧
    ∀ (i : Nat) (a b : RRsetArray), m₁.sections[i]? = some a → m₂.sections[i]? = some b → a.rrs.map RR.view <+: b.rrs.map RR.view :=
  C128_cut (p.take k) (p.drop k) k p.length m₁ m₂ (by rw [List.length_take]; omega) hk (by rw [List.take_append_drop]; omega) h64 h₁ (by rw [List.take_append_drop]; exact h₂)

theorem recsMem_length {m : List UInt8} {l sec n o o' : Nat} {a : List RR} (h : RecsMem m l sec n o a o') : a.length ≤ n := by
  induction h with
  | zero => simp
  | stop => simp
  | cons _ _ _ ih => simp only [List.length_cons]; omega

theorem rrMem_more {m t : List UInt8} {l2 sec o o' : Nat} {r : RR} (hl : m.length ≤ l2) (h : RRMem m m.length sec o o' r) : RRMem (m ++ t) l2 sec o o' r := by
  obtain ⟨c, hc⟩ := window_more (m := m) (t := t) hl
  have hw : m.take (m.length + 1) = m := List.take_of_length_le (by omega)
  cases h with
  | @question _ e n a1 a2 a3 a4 =>
    have := RRMem.question (mem := m ++ t) (len := l2) (by rw [hc]; exact denotes_append a1) a2 (by rw [hc]; exact encEnd_append a3) (by omega)
    rwa [u16At_more (by omega), u16At_more (by omega)] at this
  | @record _ _ e n x a0 a1 a2 a3 a4 a5 =>
    rcases rdataMem_more (t := t) (Nat.le_refl _) hl a4 a5 with h | ⟨_, _, d, _, _, h⟩
    · have e8 : u16At (m ++ t) (e + 8) = u16At m (e + 8) := u16At_more (by omega)
      have e0 : u16At (m ++ t) e = u16At m e := u16At_more (by omega)
      have e2 : u16At (m ++ t) (e + 2) = u16At m (e + 2) := u16At_more (by omega)
      have e4 : u32At (m ++ t) (e + 4) = u32At m (e + 4) := u32At_more (by omega)
      have := RRMem.record (mem := m ++ t) (len := l2) (x := x) a0 (by rw [hc]; exact denotes_append a1) a2 (by rw [hc]; exact encEnd_append a3) (by rw [e8]; omega)
        (by rw [e8, e0, e2]; exact h)
      rwa [e8, e0, e2, e4] at this
    · rw [hw] at h
      exact absurd h not_borrows_end

theorem recsMem_more {m t : List UInt8} {l2 sec n o o' : Nat} {a : List RR} (hl : m.length ≤ l2) (h : RecsMem m m.length sec n o a o') :
    a.length = n → RecsMem (m ++ t) l2 sec n o a o' := by
  generalize hk : m.length = k at h
  induction h with
  | zero => intro _; exact .zero
  | stop => intro h; simp at h
  | cons h1 h2 _ ih =>
    subst hk
    intro h
    simp only [List.length_cons] at h
    exact .cons (by omega) (rrMem_more hl h2) (ih (by omega))

/-- The number of records that the header announces in the first `sec` sections. -/
def announced (m : List UInt8) : Nat → Nat
  | 0 => 0
  | sec + 1 => announced m sec + u16At m (4 + 2 * sec)

theorem secStart_length {m : List UInt8} {l sec o : Nat} {a : List (Nat × RR)} (h : SecStart m l sec o a) : a.length ≤ announced m sec := by
  induction h with
  | first => simp
  | next _ h2 ih => have := recsMem_length h2; simp only [List.length_append, List.length_map, announced]; omega

theorem secStart_more {m t : List UInt8} {l2 sec o : Nat} {a : List (Nat × RR)} (h12 : 12 ≤ m.length) (hl : m.length ≤ l2) (hs : sec ≤ 4) (h : SecStart m m.length sec o a) :
    a.length = announced m sec → SecStart (m ++ t) l2 sec o a := by
  induction h with
  | first => intro _; exact .first
  | @next sec o rrs o' all h1 h2 ih =>
    intro h
    have h3 := recsMem_length h2
    have h4 := secStart_length h1
    simp only [List.length_append, List.length_map, announced] at h
    have e : u16At (m ++ t) (4 + 2 * sec) = u16At m (4 + 2 * sec) := u16At_more (by omega)
    exact .next (ih (by omega) (by omega)) (by rw [e]; exact recsMem_more hl h2 (by omega))

theorem secStart_tags {m : List UInt8} {l sec o : Nat} {a : List (Nat × RR)} (h : SecStart m l sec o a) : ∀ x ∈ a, x.1 < sec := by
  induction h with
  | first => simp
  | next _ _ ih =>
    intro x hx
    rcases List.mem_append.mp hx with hx | hx
    · have := ih x hx; omega
    · obtain ⟨r, _, rfl⟩ := List.mem_map.mp hx; simp

theorem sections_length : ∀ (a : List (Nat × RR)), (∀ x ∈ a, x.1 < 4) → (a.filter fun r => r.1 = 0).length + (a.filter fun r => r.1 = 1).length +
    (a.filter fun r => r.1 = 2).length + (a.filter fun r => r.1 = 3).length = a.length := by
  intro a
  induction a with
  | nil => simp
  | cons x a ih =>
    intro h
    have h0 := h x (by simp)
    have := ih fun y hy => h y (by simp [hy])
    obtain ⟨i, r⟩ := x
    simp only [List.filter_cons, List.length_cons]
    simp only at h0
    rcases i with _ | _ | _ | _ | i
    all_goals first | omega | (simp; omega)

/-- **C79, for all packets.** Two accepted packets with the same identifier and flags that carry the same records, whatever their memory, are parsed to the same message
(`SecStart` of Spec/Wrapped.lean is exact: no packet is left out). -/
theorem C79_same_records (mem₁ mem₂ : List UInt8) (len₁ len₂ o₁ o₂ : Nat) (all : List (Nat × RR)) (hm₁ : len₁ ≤ mem₁.length) (hm₂ : len₂ ≤ mem₂.length)
    (h64₁ : len₁ < 2 ^ 64) (h64₂ : len₂ < 2 ^ 64) (h12₁ : 12 ≤ len₁) (h12₂ : 12 ≤ len₂) (h₁ : SecStart mem₁ len₁ 4 o₁ all) (h₂ : SecStart mem₂ len₂ 4 o₂ all)
    (hh : mem₁.take 4 = mem₂.take 4) : ∃ m, parseMessage mem₁ len₁ = ok m ∧ parseMessage mem₂ len₂ = ok m :=
  parse_of_same_records hm₁ hm₂ h12₁ h12₂ ((readAll_mem_iff hm₁ h64₁ h12₁).mpr ⟨_, h₁⟩) ((readAll_mem_iff hm₂ h64₂ h12₂).mpr ⟨_, h₂⟩) hh

theorem sectionIs_length {i : Nat} {xs : List RR} {a : RRsetArray} (ha : SectionIs i xs a) : a.rrs.length = xs.length := by
  unfold SectionIs at ha
  split at ha
  · have := congrArg List.length ha.rrs_eq; simpa using this
  · have := congrArg List.length ha.rrs_eq; simpa using this

/-- **C128.** A packet that is accepted with nothing readable behind it, and has all the records that its header announces (`m` holds as many, an OPT record counting as
one): with anything appended to it, of which any part counts as the packet, it is parsed to the same message. -/
theorem C128_appended (p t : List UInt8) (m : Message) (len : Nat) (hl : p.length ≤ len) (hl' : len ≤ (p ++ t).length) (h64 : len < 2 ^ 64)
    (h : parseMessage p p.length = ok m)
    (hc : (m.sections.map fun a => a.rrs.length).sum + (if m.edns.present then 1 else 0) = u16At p 4 + u16At p 6 + u16At p 8 + u16At p 10) :
    parseMessage (p ++ t) len = ok m := by
  obtain ⟨h12, all, r1, ⟨-, -, e1, l1, s1⟩, -⟩ := parseMessage_ok (Nat.le_refl _) h
  obtain ⟨o, k⟩ := (readAll_mem_iff (Nat.le_refl _) (by omega) h12).mp r1
  have hann : announced p 4 = u16At p 4 + u16At p 6 + u16At p 8 + u16At p 10 := by simp [announced]
  have hcount : all.length = announced p 4 := by
    obtain ⟨a0, a1, a2, a3, hs⟩ : ∃ a0 a1 a2 a3, m.sections = [a0, a1, a2, a3] := by
      match hs : m.sections, l1 with
      | [a0, a1, a2, a3], _ => exact ⟨a0, a1, a2, a3, rfl⟩
    have b0 := sectionIs_length (s1 0 a0 (by rw [hs]; rfl))
    have b1 := sectionIs_length (s1 1 a1 (by rw [hs]; rfl))
    have b2 := sectionIs_length (s1 2 a2 (by rw [hs]; rfl))
    have b3 := sectionIs_length (s1 3 a3 (by rw [hs]; rfl))
    rw [hs] at hc
    simp only [List.map_cons, List.map_nil, List.sum_cons, List.sum_nil] at hc
    unfold sectionOf at b0 b1 b2 b3
    rw [List.length_map] at b0 b1 b2 b3
    have ht := sections_length (all.eraseP isOpt) fun x hx => secStart_tags k x (List.mem_of_mem_eraseP hx)
    have hopt : (all.eraseP isOpt).length + (if m.edns.present then 1 else 0) = all.length := by
      cases hf : all.find? isOpt with
      | none =>
        rw [hf] at e1
        rw [e1.1, List.eraseP_of_forall_not (by simpa using hf)]
        simp
      | some x =>
        rw [hf] at e1
        simp only at e1
        rw [e1, List.length_eraseP_of_mem (List.mem_of_find?_eq_some hf) (List.find?_some hf)]
        have := List.length_pos_of_mem (List.mem_of_find?_eq_some hf)
        simp only [if_true]
        omega
    omega
  have k2 := secStart_more (t := t) h12 hl (Nat.le_refl _) k hcount
  obtain ⟨m', p1, p2⟩ := C79_same_records p (p ++ t) p.length len o o all (Nat.le_refl _) hl' (by omega) h64 h12 (by omega) k k2 (by
    rw [List.take_append_of_le_length (by omega)])
  rw [h, ok.injEq] at p1
  rw [p1]; exact p2

theorem exists_of_accepts {mem : List UInt8} {len : Nat} (P : Message → Bool) (h : (match parseMessage mem len with | .ok m => P m | _ => false) = true) :
    ∃ m, parseMessage mem len = ok m ∧ P m = true := by
  split at h
  · rename_i m e; exact ⟨m, e, h⟩
  · cases h

/-- A case of `C128_cut_alone`: the sample message without its OPT record, and all of it. -/
example : ∃ m₁, parseMessage (sampleMsg.take 35) 35 = ok m₁ ∧ parseMessage sampleMsg 46 = ok sampleParsed ∧ (m₁.edns.present = false ∧ m₁.sections.length = 4) := by
  obtain ⟨m, h1, h2⟩ := exists_of_accepts (mem := sampleMsg.take 35) (len := 35) (fun m => !m.edns.present && m.sections.length == 4) (by decide +kernel)
  exact ⟨m, h1, by decide +kernel, by simpa using h2⟩

/-- A case of `C128_appended`: the sample message has the question, the answer and the OPT record that it announces. -/
example : parseMessage sampleMsg 46 = ok sampleParsed ∧
    (sampleParsed.sections.map fun a => a.rrs.length).sum + (if sampleParsed.edns.present then 1 else 0) = u16At sampleMsg 4 + u16At sampleMsg 6 + u16At sampleMsg 8 + u16At sampleMsg 10 := by
  decide +kernel

/-- With something readable behind it this need not be so: the octet behind the packet may complete it, and then a packet that contains this octet is another one. -/
theorem C128_borrowed : let mem : List UInt8 := [0, 0, 0, 0, 0, 0, 0, 1, 0, 0, 0, 0, 0, 0, 5, 0, 1, 0, 0, 0, 0, 0, 2, 1, 97, 0]
    (∃ m, parseMessage mem 25 = ok m) ∧ parseMessage mem 26 = err .outOfBounds := by
  intro mem
  obtain ⟨m, h, -⟩ := exists_of_accepts (mem := mem) (len := 25) (fun _ => true) (by decide +kernel)
  exact ⟨⟨m, h⟩, by decide +kernel⟩

end Wdns
