import Verif.Lemmas.Downcase
import Verif.Props.ParseRdata
import Verif.Spec.RRset

/-!
# Properties C58 - C60: lower-casing rdata
-/

namespace Wdns
open Outcome Spec

theorem mem_downcaseTypes (ty : Nat) : ty ∈ downcaseTypes ↔ ty ∈ canonicalTypes := by
  simp only [downcaseTypes, canonicalTypes, List.mem_cons, List.not_mem_nil, or_false]
  omega

theorem downcaseRdata_known {r : CRdata} {ty cls : Nat} {d : Descr} (ht : ty ∈ canonicalTypes)
    (hd : recordDescr ty = some d) (ha : d.applies cls = true) :
    downcaseRdata r ty cls = (do
      let (res, y) ← dnS d.types r.data r.len
      ok (res, ⟨r.len, y⟩)) := by
  unfold downcaseRdata
  simp only [hd, (mem_downcaseTypes ty).mpr ht, ha, if_true]
  rw [dnFields_eq]
  simp only [List.drop_zero, List.take_zero, List.nil_append]
  cases dnS d.types r.data r.len with
  | ok a => rfl
  | _ => rfl

/-! ## C58 -/

/-- **C58 (other types).** Rdata of a type outside the RFC 4034 6.2 list, or of a class-specific type in
another class, is left as it is. -/
theorem C58_untouched (r : CRdata) (ty cls : Nat)
    (h : ty ∉ canonicalTypes ∨ (∃ l, (ty, l) ∈ rrLayout ∧ l.inOnly = true ∧ cls ≠ 1)) :
    downcaseRdata r ty cls = ok (.success, r) := by
  unfold downcaseRdata
  cases hd : recordDescr ty with
  | none => rfl
  | some d =>
    rcases h with h | ⟨l, h1, h2, h3⟩
    · simp [mem_downcaseTypes, h]
    · have hall : ∀ ty < 258, ∀ d ∈ recordDescr ty, ∀ l ∈ rrLayout, l.1 = ty →
          l.2.inOnly = true → d.cls = 1 := by decide +kernel
      have hc := hall ty (recordDescr_lt hd) d hd _ h1 rfl h2
      have : d.applies cls = false := by simp [Descr.applies, hc]; omega
      simp [this]

/-- Two cases of `C58_untouched`: TXT is not a canonical type; SRV in class CH has no layout. -/
example : downcaseRdata ⟨3, [2, 65, 66]⟩ 16 1 = ok (.success, ⟨3, [2, 65, 66]⟩) ∧
    downcaseRdata ⟨9, [0, 0, 0, 0, 0, 0, 1, 65, 0]⟩ 33 3 = ok (.success, ⟨9, [0, 0, 0, 0, 0, 0, 1, 65, 0]⟩) :=
  ⟨C58_untouched _ 16 1 (.inl (by decide)), C58_untouched _ 33 3 (.inr ⟨⟨true, [.fixed 2, .fixed 2, .fixed 2, .name]⟩, by decide +kernel, rfl, by decide⟩)⟩

/-- **C58 (case only).** Whatever the rdata, its type and class, and whatever is returned: the length is kept
and each octet is kept, or was in A-Z and became the corresponding octet in a-z. -/
theorem C58_case_only (r r' : CRdata) (ty cls : Nat) (res : Res)
    (h : downcaseRdata r ty cls = ok (res, r')) :
    r'.len = r.len ∧ r'.data.length = r.data.length ∧
    ∀ (i : Nat) (a b : UInt8), r.data[i]? = some a → r'.data[i]? = some b →
      b = a ∨ (65 ≤ a.toNat ∧ a.toNat ≤ 90 ∧ b.toNat = a.toNat + 32) := by
  have triv : ∀ (r : CRdata), r.len = r.len ∧ r.data.length = r.data.length ∧
    ∀ (i : Nat) (a b : UInt8), r.data[i]? = some a → r.data[i]? = some b →
      b = a ∨ (65 ≤ a.toNat ∧ a.toNat ≤ 90 ∧ b.toNat = a.toNat + 32) := by
    intro r
    refine ⟨rfl, rfl, fun i a b h1 h2 => Or.inl ?_⟩
    rw [h1] at h2; exact (Option.some.inj h2).symm
  unfold downcaseRdata at h
  split at h
  · simp only [ok.injEq, Prod.mk.injEq] at h; obtain ⟨-, rfl⟩ := h; exact triv r
  · split at h
    · split at h
      · obtain ⟨⟨res1, y⟩, h1, h2⟩ := bind_eq_ok.mp h
        simp only [ok.injEq, Prod.mk.injEq] at h2
        obtain ⟨-, rfl⟩ := h2
        rw [dnFields_eq] at h1
        obtain ⟨⟨res2, z⟩, h3, h4⟩ := bind_eq_ok.mp h1
        simp only [List.drop_zero, List.take_zero, List.nil_append, ok.injEq, Prod.mk.injEq] at h3 h4
        obtain ⟨-, rfl⟩ := h4
        have hs := (dnS_spec _ _ _ _ _ h3).1
        refine ⟨rfl, hs.length_eq.symm, fun i a b h1 h2 => ?_⟩
        have hstep : CaseStep a b := by
          have hi := (List.getElem?_eq_some_iff.mp h1)
          have hj := (List.getElem?_eq_some_iff.mp h2)
          obtain ⟨hi, rfl⟩ := hi
          obtain ⟨hj, rfl⟩ := hj
          exact (List.forall₂_iff_get.mp hs).2 i hi hj
        rcases hstep with rfl | rfl
        · exact Or.inl rfl
        · unfold lower
          split
          · rename_i hc
            refine Or.inr ⟨hc.1, hc.2, ?_⟩
            simp; omega
          · exact Or.inl rfl
      · simp only [ok.injEq, Prod.mk.injEq] at h; obtain ⟨-, rfl⟩ := h; exact triv r
    · simp only [ok.injEq, Prod.mk.injEq] at h; obtain ⟨-, rfl⟩ := h; exact triv r

/-- A case of `C58_case_only`: even when the rdata is refused half-way. -/
example : (⟨4, [1, 109, 0, 9]⟩ : CRdata).data.length = (⟨4, [1, 77, 0, 9]⟩ : CRdata).data.length :=
  (C58_case_only ⟨4, [1, 77, 0, 9]⟩ _ 5 1 .parseError (by decide +kernel)).2.1

/-- **C58 (idempotent).** A second call returns the same code and changes nothing, whether the first call
succeeded or not. -/
theorem C58_idempotent (r r' : CRdata) (ty cls : Nat) (res : Res)
    (h : downcaseRdata r ty cls = ok (res, r')) : downcaseRdata r' ty cls = ok (res, r') := by
  unfold downcaseRdata at h ⊢
  split at h
  · simp only [ok.injEq, Prod.mk.injEq] at h ⊢; obtain ⟨rfl, rfl⟩ := h; simp
  · rename_i d hd
    split at h
    · rename_i ht
      split at h
      · rename_i ha
        obtain ⟨⟨res1, y⟩, h1, h2⟩ := bind_eq_ok.mp h
        simp only [ok.injEq, Prod.mk.injEq] at h2
        obtain ⟨rfl, rfl⟩ := h2
        rw [dnFields_eq] at h1
        obtain ⟨⟨res2, z⟩, h3, h4⟩ := bind_eq_ok.mp h1
        simp only [List.drop_zero, List.take_zero, List.nil_append, ok.injEq, Prod.mk.injEq] at h3 h4
        obtain ⟨rfl, rfl⟩ := h4
        have hs := (dnS_spec _ _ _ _ _ h3).2
        simp [ht, ha, dnFields_eq, hs]
      · rename_i ha
        simp only [ok.injEq, Prod.mk.injEq] at h; obtain ⟨rfl, rfl⟩ := h
        simp [ha]
    · rename_i ht
      simp only [ok.injEq, Prod.mk.injEq] at h; obtain ⟨rfl, rfl⟩ := h
      simp [ht]

/-- An MX record (hypotheses of C58 and C59 met): `10 MaIl.`; and an error after a change. -/
example : downcaseRdata ⟨8, [0, 10, 4, 77, 97, 73, 108, 0]⟩ 15 1 =
    ok (.success, ⟨8, [0, 10, 4, 109, 97, 105, 108, 0]⟩) ∧
    downcaseRdata ⟨4, [1, 77, 0, 9]⟩ 5 1 = ok (.parseError, ⟨4, [1, 109, 0, 9]⟩) := by decide +kernel

/-! ## C59 -/

/-- **C59, partial.** For every type of the list but A6, an rdata of that type's layout whose labels contain no
zero octet is accepted, and exactly its names are lower-cased.  Missing: A6 (see `C59_a6_violated`) and names
with a zero octet in a label (see `C59_zero_octet_violated`). -/
theorem C59_lowers_names_partial (r : CRdata) (ty cls : Nat) (d : Descr) (w' : List UInt8)
    (ht : ty ∈ canonicalTypes) (h6 : ty ≠ 38) (hd : recordDescr ty = some d) (ha : d.applies cls = true)
    (hr : r.data.length = r.len) (hw : Lowered NoZero d.types r.data w') :
    downcaseRdata r ty cls = ok (.success, ⟨r.len, w'⟩) := by
  rw [downcaseRdata_known ht hd ha, ← hr]
  have hall : ∀ ty ∈ canonicalTypes, ty ≠ 38 → ∀ d ∈ recordDescr ty, ∀ t ∈ d.types, DnGood t := by
    decide +kernel
  rw [dnS_lowered hw (hall ty ht h6 d hd)]
  simp

/-- Every rdata of a layout has a lower-cased form. -/
theorem exists_lowered {ts : List Rdf} {w : List UInt8} (h : Conforms ts w) :
    ∃ w', Lowered (fun _ => True) ts w w' := by
  induction h with
  | done => exact ⟨_, .done⟩
  | name h1 h2 _ ih => obtain ⟨w', h⟩ := ih; exact ⟨_, .name h1 h2 trivial h⟩
  | field h1 h2 h3 _ ih => obtain ⟨w', h⟩ := ih; exact ⟨_, .field h1 h2 h3 h⟩

/-- **C59 (as parsed), partial.** The rdata the parser stores for a record of such a type is rdata of the
layout, so has a form `w'` with exactly the names lower-cased; if no label contains a zero octet, downcasing
succeeds and yields it.  Missing: as in `C59_lowers_names_partial`. -/
theorem C59_parsed_partial (mem : List UInt8) (p eop o rdlen ty cls : Nat) (d : Descr) (r : CRdata)
    (ht : ty ∈ canonicalTypes) (h6 : ty ≠ 38) (hd : recordDescr ty = some d) (ha : d.applies cls = true)
    (hm : eop ≤ mem.length) (h64 : eop < 2 ^ 64) (hp : p ≤ o) (hfit : o + rdlen ≤ eop) (hl : rdlen < 65536)
    (h : parseRdata mem p eop o rdlen ty cls = ok r) (hlen : r.data.length < 65536)
    : ∃ w', Lowered (fun _ => True) d.types r.data w' ∧
      (Lowered NoZero d.types r.data w' → downcaseRdata r ty cls = ok (.success, ⟨r.len, w'⟩)) := by
  have h65 : ¬ (ty = 64 ∨ ty = 65) := by
    rintro (rfl | rfl) <;> exact absurd ht (by decide)
  obtain ⟨x, e, hx, he, rfl, hov⟩ := parseRdata_sound_mem hd ha hm h64 hp hfit hl (fun h => absurd h h65) h
  have hconf := conforms_of_layout hx he
  obtain ⟨w', hw'⟩ := exists_lowered hconf
  refine ⟨w', hw', fun hw => ?_⟩
  apply C59_lowers_names_partial _ _ _ _ _ ht h6 hd ha _ hw
  simp only at hlen ⊢
  rw [Nat.mod_eq_of_lt hlen]

/-- The SOA record `Ns. Host. 1 2 3 4 5` (only `SOA` fields shown as needed): its hypotheses hold. -/
example : Lowered NoZero [.name, .name, .int32] [2, 78, 115, 0, 1, 72, 0, 0, 0, 0, 1]
    [2, 110, 115, 0, 1, 104, 0, 0, 0, 0, 1] :=
  .name (n := [[78, 115]]) (rest := [1, 72, 0, 0, 0, 0, 1]) (rest' := [1, 104, 0, 0, 0, 0, 1]) trivial
    (by decide) (by intro l hl; simp at hl; subst hl; decide)
    (.name (n := [[72]]) (rest := [0, 0, 0, 1]) (rest' := [0, 0, 0, 1]) trivial (by decide)
      (by intro l hl; simp at hl; subst hl; decide)
      (.field (f := [0, 0, 0, 1]) (rest := []) (rest' := []) (by simp [FieldOK]) (by simp)
        (by simp [Terminal]) .done))

/-- What fails of C59: an A6 rdata with a prefix longer than 16 bits, as the parser accepts it, is always
rejected (the code takes the prefix length for the number of address octets) ... -/
theorem C59_a6_violated (pl : UInt8) (s : List UInt8) (h : 16 < pl.toNat) :
    downcaseRdata ⟨(pl :: s).length, pl :: s⟩ 38 1 = ok (.parseError, ⟨(pl :: s).length, pl :: s⟩) := by
  simp [downcaseRdata, recordDescr, downcaseTypes, Descr.applies, dnFields, rd, h]

/-- ... and in one with a short prefix it lower-cases octets of the address: prefix length 0, address
`4141:...:4100`. -/
theorem C59_a6_address_violated :
    parseRdata ([0] ++ List.replicate 15 65 ++ [0]) 0 17 0 17 38 1 =
      ok ⟨17, [0] ++ List.replicate 15 65 ++ [0]⟩ ∧
    downcaseRdata ⟨17, [0] ++ List.replicate 15 65 ++ [0]⟩ 38 1 =
      ok (.success, ⟨17, [0] ++ List.replicate 15 97 ++ [0]⟩) := by decide +kernel

/-- What fails of C59: a name with a zero octet in a label (which the parser accepts) is cut short there. -/
theorem C59_zero_octet_violated :
    parseRdata [2, 0, 65, 0] 0 4 0 4 5 1 = ok ⟨4, [2, 0, 65, 0]⟩ ∧
    downcaseRdata ⟨4, [2, 0, 65, 0]⟩ 5 1 = ok (.parseError, ⟨4, [2, 0, 65, 0]⟩) := by decide +kernel

/-! ## C60 -/

/-- **C60, partial.** `wdns_downcase_rdata` accesses only the bytes of the rdata - for every rdata, type and
class, except exactly these: a non-empty SOA, MINFO or RP rdata without a zero octet, and a PX rdata (class IN)
longer than 2 octets without a zero octet after the first two. -/
theorem C60_memory_safe_partial (r : CRdata) (ty cls : Nat) (hr : r.data.length = r.len) :
    ((downcaseRdata r ty cls = ub ∧
        ((ty ∈ [6, 14, 17] ∧ r.data ≠ [] ∧ 0 ∉ r.data) ∨
         (ty = 26 ∧ cls = 1 ∧ 2 < r.len ∧ 0 ∉ r.data.drop 2))) ∨
     ((downcaseRdata r ty cls).Returns ∧
        ¬ ((ty ∈ [6, 14, 17] ∧ r.data ≠ [] ∧ 0 ∉ r.data) ∨
           (ty = 26 ∧ cls = 1 ∧ 2 < r.len ∧ 0 ∉ r.data.drop 2)))) := by
  have lift : ∀ (o : Outcome (Res × List UInt8)), o.Returns →
      (do let (res, y) ← o; ok (res, (⟨r.len, y⟩ : CRdata))).Returns :=
    fun o ho => Returns.bind ho (fun a _ => by simp)
  have two : ∀ t1 t2 ts, IsName t1 → IsName t2 → ts.all NoRead = true → ty ∈ [6, 14, 17] →
      recordDescr ty = some ⟨0, t1 :: t2 :: ts⟩ →
      ((downcaseRdata r ty cls = ub ∧ r.data ≠ [] ∧ 0 ∉ r.data) ∨
        ((downcaseRdata r ty cls).Returns ∧ ¬ (r.data ≠ [] ∧ 0 ∉ r.data))) := by
    intro t1 t2 ts h1 h2 h3 h4 h5
    have hc : ty ∈ canonicalTypes := by
      simp only [List.mem_cons, List.not_mem_nil, or_false] at h4
      simp only [canonicalTypes, List.mem_cons, List.not_mem_nil, or_false]; omega
    rw [downcaseRdata_known hc h5 (by simp [Descr.applies]), ← hr]
    have := dnS_two h1 h2 h3 r.data
    by_cases hz : r.data ≠ [] ∧ 0 ∉ r.data
    · exact Or.inl ⟨by rw [this.1 hz]; rfl, hz⟩
    · refine Or.inr ⟨?_, hz⟩
      rw [hr]; apply lift; rw [← hr]; exact this.2 hz
  by_cases h3 : ty ∈ [6, 14, 17]
  · have h26 : ty ≠ 26 := by
      simp only [List.mem_cons, List.not_mem_nil, or_false] at h3; omega
    have : ((downcaseRdata r ty cls = ub ∧ r.data ≠ [] ∧ 0 ∉ r.data) ∨
        ((downcaseRdata r ty cls).Returns ∧ ¬ (r.data ≠ [] ∧ 0 ∉ r.data))) := by
      have h3' := h3
      simp only [List.mem_cons, List.not_mem_nil, or_false] at h3'
      rcases h3' with rfl | rfl | rfl
      · exact two .name .name _ trivial trivial rfl h3 rfl
      · exact two .name .name _ trivial trivial rfl h3 rfl
      · exact two .name .name _ trivial trivial rfl h3 rfl
    rcases this with ⟨a, b⟩ | ⟨a, b⟩
    · exact Or.inl ⟨a, Or.inl ⟨h3, b⟩⟩
    · refine Or.inr ⟨a, ?_⟩
      rintro (h | h)
      · exact b h.2
      · exact h26 h.1
  · by_cases hpx : ty = 26 ∧ cls = 1
    · obtain ⟨rfl, rfl⟩ := hpx
      rw [downcaseRdata_known (d := ⟨1, [.int16, .name, .name]⟩) (by decide) rfl rfl]
      have e : dnS [.int16, .name, .name] r.data r.len =
          if r.len = 0 then ok (.success, r.data) else
          if r.len < 2 then ok (.parseError, r.data) else
          (dnS [.name, .name] (r.data.drop 2) (r.len - 2) >>= fun a => ok (a.1, r.data.take 2 ++ a.2)) := by
        rw [dnS]; simp only [IsName, if_false, dnStop, dnAdv, ok_bind, Bool.false_eq_true]
      have hd2 : (r.data.drop 2).length = r.len - 2 := by simp [hr]
      have htwo := dnS_two (t1 := .name) (t2 := .name) (ts := []) trivial trivial rfl (r.data.drop 2)
      rw [hd2] at htwo
      have hne : r.data.drop 2 ≠ [] ↔ 2 < r.len := by
        rw [ne_eq, List.drop_eq_nil_iff]; omega
      by_cases hz : r.data.drop 2 ≠ [] ∧ 0 ∉ r.data.drop 2
      · left
        have hlt := hne.mp hz.1
        refine ⟨?_, Or.inr ⟨rfl, rfl, hlt, hz.2⟩⟩
        rw [e, if_neg (by omega), if_neg (by omega), htwo.1 hz]; rfl
      · right
        refine ⟨?_, ?_⟩
        · apply lift
          rw [e]
          split
          · simp
          · split
            · simp
            · exact Returns.bind (htwo.2 hz) (fun a _ => by simp)
        · rintro (h | h)
          · exact h3 h.1
          · exact hz ⟨hne.mpr h.2.2.1, h.2.2.2⟩
    · right
      refine ⟨?_, ?_⟩
      · by_cases ht : ty ∈ canonicalTypes
        · cases hd : recordDescr ty with
          | none => simp [downcaseRdata, hd]
          | some d =>
            by_cases ha : d.applies cls = true
            · rw [downcaseRdata_known ht hd ha]
              apply lift
              have hall : ∀ ty ∈ canonicalTypes, ty ∉ [6, 14, 17] → ty ≠ 26 → ∀ d ∈ recordDescr ty,
                  SafeTail d.types = true := by decide +kernel
              have h26 : ty ≠ 26 := by
                rintro rfl
                have : d = ⟨1, [.int16, .name, .name]⟩ := (Option.some.inj hd).symm
                subst this
                exact hpx ⟨rfl, by simpa [Descr.applies, eq_comm] using ha⟩
              exact dnS_safe _ _ _ (hall ty ht h3 h26 d hd) (by omega)
            · simp [downcaseRdata, hd, ha]
        · rw [C58_untouched r ty cls (Or.inl ht)]; simp
      · rintro (h | h)
        · exact h3 h.1
        · exact hpx ⟨h.1, h.2.1⟩

/-- A case of `C60_memory_safe_partial`, on the safe side: an SOA rdata with a zero octet in it. -/
example : (downcaseRdata ⟨3, [1, 65, 0]⟩ 6 1).Returns := by
  rcases C60_memory_safe_partial ⟨3, [1, 65, 0]⟩ 6 1 rfl with h | h
  · rcases h.2 with h | h <;> revert h <;> decide
  · exact h.1

/-- The failing case of C60, on the smallest SOA rdata: one octet. -/
theorem C60_violated : downcaseRdata ⟨1, [1]⟩ 6 1 = ub := by decide +kernel

/-! ## RRsets -/

theorem downcaseRdatas_spec (ty cls : Nat) : ∀ (rs : List CRdata),
    (∀ r ∈ rs, ∃ r', downcaseRdata r ty cls = ok (.success, r')) →
    ∃ rs', downcaseRdatas ty cls rs = ok (.success, rs') ∧
      List.Forall₂ (fun r r' => downcaseRdata r ty cls = ok (.success, r')) rs rs' := by
  intro rs
  induction rs with
  | nil => intro _; exact ⟨[], rfl, .nil⟩
  | cons r rs ih =>
    intro h
    obtain ⟨r', hr⟩ := h r (by simp)
    obtain ⟨rs', h1, h2⟩ := ih (fun r h' => h r (by simp [h']))
    exact ⟨r' :: rs', by simp [downcaseRdatas, hr, h1], .cons hr h2⟩

/-- **C58 (RRsets).** `wdns_downcase_rrset` lower-cases the owner name and does to each rdata what
`wdns_downcase_rdata` does to it, keeping their number and order, TTL, type and class. -/
theorem C58_rrset (s : RRset) (hn : s.name.Valid)
    (h : ∀ r ∈ s.rdatas, ∃ r', downcaseRdata r s.rrtype s.rrclass = ok (.success, r')) :
    ∃ s', downcaseRrset s = ok (.success, s') ∧ s'.name.bytes = s.name.bytes.map lower ∧
      s'.name.len = s.name.len ∧ s'.rrttl = s.rrttl ∧ s'.rrtype = s.rrtype ∧ s'.rrclass = s.rrclass ∧
      List.Forall₂ (fun r r' => downcaseRdata r s.rrtype s.rrclass = ok (.success, r')) s.rdatas s'.rdatas := by
  obtain ⟨rs', h1, h2⟩ := downcaseRdatas_spec _ _ _ h
  have hb := downcaseBytes_spec s.name.len s.name.data hn
  refine ⟨{ s with
      name := { s.name with data := (s.name.data.take s.name.len).map lower ++ s.name.data.drop s.name.len },
      rdatas := rs' }, by simp only [downcaseRrset, downcaseName, hb, ok_bind, h1],
    ?_, rfl, rfl, rfl, rfl, h2⟩
  have hl : ((s.name.data.take s.name.len).map lower).length = s.name.len := by
    have := hn; unfold CName.Valid at this; simp [Nat.min_eq_left this]
  simp only [CName.bytes]
  rw [List.take_append_of_le_length (by omega), List.take_of_length_le (by omega)]

/-- A case of `C58_rrset`: a CNAME RRset. -/
example : ∃ s', downcaseRrset ⟨5, 5, 1, ⟨3, [1, 65, 0]⟩, [⟨3, [1, 66, 0]⟩]⟩ = ok (.success, s') ∧ s'.name.bytes = [1, 97, 0] := by
  obtain ⟨s', h, hn, -⟩ := C58_rrset ⟨5, 5, 1, ⟨3, [1, 65, 0]⟩, [⟨3, [1, 66, 0]⟩]⟩ (by unfold CName.Valid; decide)
    (by intro r hr; simp only [List.mem_singleton] at hr; subst hr; exact ⟨⟨3, [1, 98, 0]⟩, by decide +kernel⟩)
  exact ⟨s', h, hn⟩

/-- The first rdata that is rejected ends the work; the later ones keep their case. -/
theorem C58_rrset_error (s : RRset) (hn : s.name.Valid) (pre post : List CRdata) (r r' : CRdata) (res : Res)
    (hs : s.rdatas = pre ++ r :: post)
    (hpre : ∀ r ∈ pre, ∃ r', downcaseRdata r s.rrtype s.rrclass = ok (.success, r'))
    (hr : downcaseRdata r s.rrtype s.rrclass = ok (res, r')) (hres : res ≠ .success) :
    ∃ s' pre', downcaseRrset s = ok (res, s') ∧ s'.rdatas = pre' ++ r' :: post ∧
      List.Forall₂ (fun r r' => downcaseRdata r s.rrtype s.rrclass = ok (.success, r')) pre pre' := by
  have key : ∀ (pre : List CRdata),
      (∀ r ∈ pre, ∃ r', downcaseRdata r s.rrtype s.rrclass = ok (.success, r')) →
      ∃ pre', downcaseRdatas s.rrtype s.rrclass (pre ++ r :: post) = ok (res, pre' ++ r' :: post) ∧
        List.Forall₂ (fun r r' => downcaseRdata r s.rrtype s.rrclass = ok (.success, r')) pre pre' := by
    intro pre
    induction pre with
    | nil => intro _; exact ⟨[], by simp [downcaseRdatas, hr, hres], .nil⟩
    | cons a pre ih =>
      intro h
      obtain ⟨a', ha⟩ := h a (by simp)
      obtain ⟨pre', h1, h2⟩ := ih (fun r h' => h r (by simp [h']))
      exact ⟨a' :: pre', by simp [downcaseRdatas, ha, h1], .cons ha h2⟩
  obtain ⟨pre', h1, h2⟩ := key pre hpre
  have hb := downcaseBytes_spec s.name.len s.name.data hn
  exact ⟨{ s with
      name := { s.name with data := (s.name.data.take s.name.len).map lower ++ s.name.data.drop s.name.len },
      rdatas := pre' ++ r' :: post }, pre', by simp only [downcaseRrset, downcaseName, hb, ok_bind, hs, h1],
    rfl, h2⟩

example : downcaseRrset ⟨5, 5, 1, ⟨3, [1, 65, 0]⟩, [⟨3, [1, 66, 0]⟩, ⟨3, [1, 99, 0]⟩]⟩ =
    ok (.success, ⟨5, 5, 1, ⟨3, [1, 97, 0]⟩, [⟨3, [1, 98, 0]⟩, ⟨3, [1, 99, 0]⟩]⟩) := by decide +kernel

end Wdns
