import Verif.Props.Message
import Verif.Lemmas.ParseSafe

/-!
# C107: how much a packet can cost
-/

namespace Wdns
open Outcome Spec

/-! ## Iterations for one name -/

theorem unpackLoop_bound {cap mem p eop} : ∀ fuel src out total, p ≤ src → total ≤ 254 → 2 * (src - p) + 3 * (254 - total) < 2 * fuel →
    unpackLoop cap mem p eop fuel src out total ≠ hang := by
  intro fuel
  induction fuel with
  | zero => intro src out total _ h2 h; omega
  | succ fuel ih =>
    intro src out total hs ht hf
    cases hc : mem[src]? with
    | none => simp [unpack_none hc]
    | some c =>
    rcases byte_cases c with rfl | ⟨h1, h2⟩ | ⟨h1, h2⟩ | h1
    · rw [unpack_zero hc]; split <;> simp
    · rw [unpack_label hc h1 h2]
      split_ifs <;> try simp
      exact ih _ _ _ (by omega) (by omega) (by omega)
    · simp [unpack_bad hc h1 h2]
    · rw [unpack_ptr hc h1]
      split
      · simp
      cases hlo : mem[src + 1]? with
      | none => simp
      | some lo =>
        simp only
        split
        · simp
        exact ih _ _ _ (by omega) ht (by omega)

theorem unpackLoop_bound14 {cap mem p eop} : ∀ fuel src out total, p ≤ src → total ≤ 254 → 2 * 16383 + 3 * (254 - total) + 2 < 2 * fuel →
    unpackLoop cap mem p eop fuel src out total ≠ hang := by
  intro fuel
  induction fuel with
  | zero => intro src out total _ h2 h; omega
  | succ fuel ih =>
    intro src out total hs ht hf
    cases hc : mem[src]? with
    | none => simp [unpack_none hc]
    | some c =>
    rcases byte_cases c with rfl | ⟨h1, h2⟩ | ⟨h1, h2⟩ | h1
    · rw [unpack_zero hc]; split <;> simp
    · rw [unpack_label hc h1 h2]
      split_ifs <;> try simp
      exact ih _ _ _ (by omega) (by omega) (by omega)
    · simp [unpack_bad hc h1 h2]
    · rw [unpack_ptr hc h1]
      split
      · simp
      cases hlo : mem[src + 1]? with
      | none => simp
      | some lo =>
        simp only
        split
        · simp
        have := lo.toNat_lt
        have := c.toNat_lt
        exact unpackLoop_bound _ _ _ _ (by omega) ht (by omega)

/-! ## Octets stored -/

/-- The step from `st` to `st'` copies octets. -/
structure Copied (st st' : PState) : Prop where
  pos : st'.src + st'.bytes = st.src + st.bytes
  le : st'.bytes ≤ st.bytes
  out : st'.out.length + st'.bytes = st.out.length + st.bytes

theorem Copied.refl (st : PState) : Copied st st := ⟨rfl, Nat.le_refl _, rfl⟩
theorem Copied.trans {a b c : PState} (h : Copied a b) (g : Copied b c) : Copied a c :=
  ⟨by rw [g.pos, h.pos], Nat.le_trans g.le h.le, by rw [g.out, h.out]⟩

theorem pCopy_copied {mem : List UInt8} {st st' : PState} {x : Nat} (h : pCopy mem st x = ok st') : Copied st st' := by
  unfold pCopy at h
  split at h
  · simp at h
  · obtain ⟨bs, hb, h⟩ := bind_eq_ok.mp h
    simp only [ok.injEq] at h
    have hl : bs.length = x := by
      unfold rdN at hb
      split at hb
      · simp only [ok.injEq] at hb; rw [← hb]; simp; omega
      · simp at hb
    subst h
    exact ⟨by simp only; omega, by simp only; omega, by simp only [List.length_append]; omega⟩

theorem pRepstring_copied {mem : List UInt8} : ∀ fuel st st', pRepstring mem fuel st = ok st' → Copied st st'
  | 0, _, _, h => by simp [pRepstring] at h
  | fuel + 1, st, st', h => by
    rw [pRepstring] at h
    split at h
    · obtain ⟨c, _, h⟩ := bind_eq_ok.mp h
      obtain ⟨s, hs, h⟩ := bind_eq_ok.mp h
      exact (pCopy_copied hs).trans (pRepstring_copied fuel _ _ h)
    · simp only [ok.injEq] at h; subst h; exact .refl _

theorem pBitmap_copied {mem : List UInt8} : ∀ fuel st st', pBitmap mem fuel st = ok st' → Copied st st'
  | 0, _, _, h => by simp [pBitmap] at h
  | fuel + 1, st, st', h => by
    rw [pBitmap] at h
    split at h
    · obtain ⟨c, _, h⟩ := bind_eq_ok.mp h
      split at h
      · simp at h
      · split at h
        · obtain ⟨s, hs, h⟩ := bind_eq_ok.mp h
          exact (pCopy_copied hs).trans (pBitmap_copied fuel _ _ h)
        · simp at h
    · simp only [ok.injEq] at h; subst h; exact .refl _

theorem pSvcparams_copied {mem : List UInt8} : ∀ fuel st st', pSvcparams mem fuel st = ok st' → Copied st st'
  | 0, _, _, h => by simp [pSvcparams] at h
  | fuel + 1, st, st', h => by
    rw [pSvcparams] at h
    split at h
    · split at h
      · simp at h
      · obtain ⟨_, _, h⟩ := bind_eq_ok.mp h
        obtain ⟨_, _, h⟩ := bind_eq_ok.mp h
        obtain ⟨_, _, h⟩ := bind_eq_ok.mp h
        obtain ⟨_, _, h⟩ := bind_eq_ok.mp h
        dsimp only at h
        split at h
        · simp at h
        · obtain ⟨v, _, h⟩ := bind_eq_ok.mp h
          split at h
          · simp at h
          · obtain ⟨s, hs, h⟩ := bind_eq_ok.mp h
            exact (pCopy_copied hs).trans (pSvcparams_copied fuel _ _ h)
    · simp only [ok.injEq] at h; subst h; exact .refl _

theorem pField_copied {mem : List UInt8} {p eop : Nat} {t : Rdf} {st st' : PState} (hn : ¬ IsName t) (h : pField mem p eop t st = ok st') : Copied st st' := by
  cases t <;> simp only [IsName, not_true_eq_false] at hn <;> simp only [pField] at h
  all_goals first
    | exact pCopy_copied h
    | exact pRepstring_copied _ _ _ h
    | exact pBitmap_copied _ _ _ h
    | exact pSvcparams_copied _ _ _ h
    | (obtain ⟨c, _, h⟩ := bind_eq_ok.mp h; exact pCopy_copied h)
    | (obtain ⟨c, _, h⟩ := bind_eq_ok.mp h
       split at h
       · simp at h
       · exact pCopy_copied h)

/-- What a name can cost: `k` octets of the packet, and the octet behind it counts if the name ends there. -/
theorem name_cost {mem : List UInt8} {p eop src : Nat} {nm : List UInt8} {len s k : Nat} (h64 : eop < 2 ^ 64)
    (hu : unpackName maxlenName mem p eop src = ok (nm, len)) (hs : skipName mem src eop = ok (s, k)) :
    src < s ∧ s ≤ eop ∧ k = s - src ∧ len = nm.length ∧ nm.length ≤ 48 * k + 159 + (if s = eop then 48 else 0) := by
  obtain ⟨_, hlt, n, e, hd, hw, rfl, rfl, he, hee, hs', hk⟩ := unpack_skip h64 hu hs
  have hes := encEnd_lt he
  have hl : (wire n).length ≤ 255 := hw.2
  refine ⟨by omega, by omega, hk, rfl, ?_⟩
  by_cases h2 : 2 ≤ k
  · omega
  · by_cases h3 : e = src + 1
    · -- the root
      have h0 : (mem.take (eop + 1))[src]? = some 0 := by
        cases he with
        | root h => exact h
        | label _ _ _ h => have := encEnd_lt h; omega
        | ptr _ _ => omega
      have : (wire n).length = 1 := by
        cases hd with
        | root _ => rfl
        | label h1 h2 _ _ _ => rw [h0] at h1; injection h1 with h1; subst h1; simp at h2
        | ptr h1 h2 _ _ _ => rw [h0] at h1; injection h1 with h1; subst h1; simp at h2
      omega
    · rw [if_pos (by omega)]; omega

/-- What the fields of an rdata can cost. -/
theorem pFields_cost {mem : List UInt8} {p eop : Nat} (h64 : eop < 2 ^ 64) : ∀ ts st st', st.src + st.bytes ≤ eop → pFields mem p eop ts st = ok st' →
    st'.src + st'.bytes = st.src + st.bytes ∧ st'.bytes ≤ st.bytes ∧
    st'.out.length + 48 * st'.bytes ≤ st.out.length + 48 * st.bytes + 159 * ts.countP (fun t => decide (IsName t)) +
      (if st.src + st.bytes = eop ∧ st.bytes ≠ 0 then 48 else 0) := by
  intro ts
  induction ts with
  | nil => intro st st' _ h; simp only [pFields, ok.injEq] at h; subst h; exact ⟨rfl, Nat.le_refl _, by omega⟩
  | cons t ts ih =>
    intro st st' hl h
    rw [pFields] at h
    split at h
    · simp only [ok.injEq] at h; subst h; exact ⟨rfl, Nat.le_refl _, by omega⟩
    · rename_i hb
      obtain ⟨s1, hf, h⟩ := bind_eq_ok.mp h
      by_cases hN : IsName t
      · obtain ⟨src, b, out⟩ := st
        rw [pField_name hN] at hf
        obtain ⟨⟨nm, len⟩, hu, hf⟩ := bind_eq_ok.mp hf
        obtain ⟨⟨s, k⟩, hs, hf⟩ := bind_eq_ok.mp hf
        obtain ⟨c1, c2, c3, c4, c5⟩ := name_cost h64 hu hs
        simp only at hf hb hl ⊢
        split at hf
        · simp at hf
        simp only [ok.injEq] at hf
        subst hf
        have ih' := ih _ _ (by simp only; omega) h
        simp only at ih'
        rw [List.countP_cons, if_pos (by simpa using hN)]
        have hlen : (out ++ nm.take len).length = out.length + nm.length := by rw [c4, List.take_length, List.length_append]
        rw [hlen] at ih'
        refine ⟨by omega, by omega, ?_⟩
        have h3 := ih'.2.2
        by_cases he : s = eop
        · rw [if_pos he] at c5
          rw [if_neg (by omega)] at h3
          rw [if_pos (by omega)]
          omega
        · rw [if_neg he] at c5
          by_cases hx : src + b = eop
          · rw [if_pos ⟨hx, hb⟩]
            split at h3 <;> omega
          · rw [if_neg (by omega)] at h3
            omega
      · have hc := pField_copied hN hf
        have ih' := ih _ _ (by rw [hc.pos]; exact hl) h
        have h1 := hc.pos
        have h2 := hc.le
        have h3 := hc.out
        rw [List.countP_cons, if_neg (by simpa using hN)]
        refine ⟨by omega, by omega, ?_⟩
        have h4 := ih'.2.2
        rw [h1] at h4
        by_cases hx : st.src + st.bytes = eop
        · rw [if_pos ⟨hx, hb⟩]
          split at h4 <;> omega
        · rw [if_neg (by omega)] at h4
          omega

theorem names_le_two {ty : Nat} {d : Descr} (h : recordDescr ty = some d) : d.types.countP (fun t => decide (IsName t)) ≤ 2 := by
  have hall : ∀ ty < 258, ∀ d ∈ recordDescr ty, d.types.countP (fun t => decide (IsName t)) ≤ 2 := by decide +kernel
  exact hall ty (recordDescr_lt h) d h

theorem parseRdata_cost {mem : List UInt8} {p eop o rdlen ty cls : Nat} {d : CRdata} (h64 : eop < 2 ^ 64) (hl : o + rdlen ≤ eop)
    (h : parseRdata mem p eop o rdlen ty cls = ok d) : d.data.length ≤ 48 * rdlen + 318 + (if o + rdlen = eop then 48 else 0) := by
  have hcopy : ∀ {x st}, pCopy mem ⟨o, rdlen, []⟩ x = ok st → st.out.length ≤ 48 * rdlen + 318 + (if o + rdlen = eop then 48 else 0) := by
    intro x st hx
    have := (pCopy_copied hx).out
    simp only [List.length_nil] at this
    omega
  unfold parseRdata at h
  dsimp only at h
  split at h
  · obtain ⟨st, hst, h⟩ := bind_eq_ok.mp h
    simp only [ok.injEq] at h
    subst h
    exact hcopy hst
  · rename_i dd hd
    split at h
    · obtain ⟨s, hs, h⟩ := bind_eq_ok.mp h
      split at h
      · simp at h
      · simp only [ok_bind, ok.injEq] at h
        subst h
        have hc := (pFields_cost h64 _ _ _ hl hs).2.2
        have h2 := names_le_two hd
        simp only [List.length_nil] at hc ⊢
        split at hc
        · rename_i hx; rw [if_pos hx.1]; omega
        · omega
    · obtain ⟨st, hst, h⟩ := bind_eq_ok.mp h
      simp only [ok.injEq] at h
      subst h
      exact hcopy hst

namespace Spec

/-- The octets of owner name and rdata stored for a record. -/
def rrOctets (r : RR) : Nat := r.name.data.length + ((r.rdata.map fun d => d.data.length).getD 0)

/-- The octets of owner name and rdatas stored for an RRset. -/
def rrsetOctets (s : RRset) : Nat := s.name.data.length + (s.rdatas.map fun d => d.data.length).sum

/-- The octets of names and rdatas stored for a section: for its records, and again for its RRsets. -/
def arrayOctets (a : RRsetArray) : Nat := (a.rrs.map rrOctets).sum + (a.rrsets.map rrsetOctets).sum

/-- The octets of names and rdatas stored in a message. -/
def messageOctets (m : Message) : Nat := (m.sections.map arrayOctets).sum + ((m.edns.options.map fun d => d.data.length).getD 0)

/-- The number of records in a message. -/
def messageRecords (m : Message) : Nat := (m.sections.map fun a => a.rrs.length).sum + (if m.edns.present then 1 else 0)

end Spec

theorem parseMessageRr_cost {sec : Nat} {mem : List UInt8} {p eop data : Nat} {rr : RR} {sz : Nat} (h64 : eop < 2 ^ 64)
    (h : parseMessageRr sec mem p eop data = ok (rr, sz)) :
    5 ≤ sz ∧ data + sz ≤ eop ∧ rrOctets rr ≤ 48 * sz + (if data + sz = eop then 48 else 0) := by
  unfold parseMessageRr at h
  obtain ⟨⟨nm, len⟩, hu, h⟩ := bind_eq_ok.mp h
  obtain ⟨⟨src, k⟩, hs, h⟩ := bind_eq_ok.mp h
  obtain ⟨c1, c2, c3, c4, c5⟩ := name_cost h64 hu hs
  have hn : (nm.take len).length = nm.length := by rw [c4, List.take_length]
  dsimp only at h
  split at h
  · simp at h
  rename_i hb
  rw [if_neg (by omega)] at c5
  obtain ⟨_, _, h⟩ := bind_eq_ok.mp h
  obtain ⟨_, _, h⟩ := bind_eq_ok.mp h
  obtain ⟨_, _, h⟩ := bind_eq_ok.mp h
  obtain ⟨_, _, h⟩ := bind_eq_ok.mp h
  split at h
  · simp only [ok.injEq, Prod.mk.injEq] at h
    obtain ⟨rfl, rfl⟩ := h
    refine ⟨by omega, by omega, ?_⟩
    simp only [rrOctets, hn, Option.map_none, Option.getD_none]
    omega
  · obtain ⟨_, _, h⟩ := bind_eq_ok.mp h
    obtain ⟨_, _, h⟩ := bind_eq_ok.mp h
    obtain ⟨_, _, h⟩ := bind_eq_ok.mp h
    obtain ⟨_, _, h⟩ := bind_eq_ok.mp h
    obtain ⟨n0, _, h⟩ := bind_eq_ok.mp h
    obtain ⟨n1, _, h⟩ := bind_eq_ok.mp h
    split at h
    · simp at h
    rename_i hb2
    obtain ⟨d, hd, h⟩ := bind_eq_ok.mp h
    simp only [ok.injEq, Prod.mk.injEq] at h
    obtain ⟨rfl, rfl⟩ := h
    have hc := parseRdata_cost h64 (by omega) hd
    refine ⟨by omega, by omega, ?_⟩
    simp only [rrOctets, hn, Option.map_some, Option.getD_some]
    by_cases hx : src + 10 + be16 n0 n1 = eop
    · rw [if_pos hx] at hc
      rw [if_pos (by omega)]
      omega
    · rw [if_neg hx] at hc
      omega

theorem insertFind_cost {rr : RR} : ∀ {ss rs : List RRset}, insertFind rr ss = ok (some rs) →
    (rs.map rrsetOctets).sum ≤ (ss.map rrsetOctets).sum + rrOctets rr
  | [], rs, h => by simp [insertFind] at h
  | s :: rest, rs, h => by
    rw [insertFind] at h
    obtain ⟨m, _, h⟩ := bind_eq_ok.mp h
    split at h
    · split at h
      · simp at h
      · split at h
        · simp at h
        · rename_i d hd
          simp only [ok.injEq, Option.some.injEq] at h
          subst h
          simp [rrsetOctets, rrOctets, hd]
          omega
    · obtain ⟨r, hr, h⟩ := bind_eq_ok.mp h
      simp only [ok.injEq, Option.map_eq_some_iff] at h
      obtain ⟨r', rfl, rfl⟩ := h
      have := insertFind_cost hr
      simp only [List.map_cons, List.sum_cons]
      omega

theorem copyRR_cost {rr rr' : RR} {sec : Nat} (h : copyRR rr sec = ok rr') : rrOctets rr' ≤ rrOctets rr := by
  have hrd : ∀ {m : List UInt8} {n : Nat} {b : List UInt8}, rdN m 0 n = ok b → b.length ≤ m.length := by
    intro m n b hb
    unfold rdN at hb
    split at hb
    · simp only [ok.injEq] at hb; rw [← hb]; simp only [List.length_take, List.length_drop]; omega
    · simp at hb
  unfold copyRR at h
  obtain ⟨nm, hnm, h⟩ := bind_eq_ok.mp h
  have h1 := hrd hnm
  split at h
  · split at h
    · simp at h
    · rename_i d hd
      obtain ⟨b, hb, h⟩ := bind_eq_ok.mp h
      have h2 := hrd hb
      simp only [ok_bind, ok.injEq] at h
      subst h
      simp only [rrOctets, hd, Option.map_some, Option.getD_some]
      omega
  · simp only [ok_bind, ok.injEq] at h
    subst h
    simp only [rrOctets, Option.map_none, Option.getD_none]
    omega

theorem insertRr_cost {a a' : RRsetArray} {rr : RR} {sec : Nat} (h : insertRr a rr sec = ok a') :
    arrayOctets a' ≤ arrayOctets a + 2 * rrOctets rr ∧ a'.rrs.length = a.rrs.length + 1 := by
  unfold insertRr at h
  split at h
  · simp at h
  obtain ⟨r', hr', h⟩ := bind_eq_ok.mp h
  have h1 := copyRR_cost hr'
  have key : ∀ found, (found = none ∨ ∃ rs, found = some rs ∧ insertFind rr a.rrsets.reverse = ok (some rs)) →
      (match found with
        | some rs => ok ⟨a.rrs ++ [r'], rs.reverse⟩
        | none => if a.rrsets.length + 1 ≥ 65536 then abort
          else ok ⟨a.rrs ++ [r'], a.rrsets ++ [⟨rr.rrttl, rr.rrtype, rr.rrclass, rr.name, if sec ≠ 0 then rr.rdata.toList else []⟩]⟩ : Outcome RRsetArray) = ok a' →
      arrayOctets a' ≤ arrayOctets a + 2 * rrOctets rr ∧ a'.rrs.length = a.rrs.length + 1 := by
    intro found hf h
    rcases hf with rfl | ⟨rs, rfl, hf⟩
    · dsimp only at h
      split at h
      · simp at h
      simp only [ok.injEq] at h
      subst h
      refine ⟨?_, by simp⟩
      have : rrsetOctets ⟨rr.rrttl, rr.rrtype, rr.rrclass, rr.name, if sec ≠ 0 then rr.rdata.toList else []⟩ ≤ rrOctets rr := by
        simp only [rrsetOctets, rrOctets]
        split
        · cases rr.rdata <;> simp
        · simp
      simp only [arrayOctets, List.map_append, List.sum_append, List.map_cons, List.map_nil, List.sum_cons, List.sum_nil]
      omega
    · simp only [ok.injEq] at h
      subst h
      refine ⟨?_, by simp⟩
      have h2 := insertFind_cost hf
      simp only [List.map_reverse, List.sum_reverse] at h2
      simp only [arrayOctets, List.map_append, List.sum_append, List.map_cons, List.map_nil, List.sum_cons, List.sum_nil, List.map_reverse, List.sum_reverse]
      omega
  by_cases hs : sec = 0
  · simp only [if_pos hs, ok_bind] at h
    exact key none (.inl rfl) h
  · simp only [if_neg hs] at h
    obtain ⟨found, hf, h⟩ := bind_eq_ok.mp h
    cases found with
    | none => exact key none (.inl rfl) h
    | some rs => exact key (some rs) (.inr ⟨rs, rfl, hf⟩) h

/-- The octets of EDNS options stored. -/
def ednsOctets (e : Edns) : Nat := (e.options.map fun d => d.data.length).getD 0

/-- 1 if there was an OPT record. -/
def ednsCount (e : Edns) : Nat := if e.present then 1 else 0

theorem parseSection_cost {sec : Nat} {mem : List UInt8} {len : Nat} (h64 : len < 2 ^ 64) : ∀ n st st' b, st.p ≤ len →
    parseSection sec mem len n st = ok (st', b) →
    st.p ≤ st'.p ∧ st'.p ≤ len ∧ (b = true → st'.p = len) ∧
    arrayOctets st'.arr + ednsOctets st'.hdr.edns ≤ arrayOctets st.arr + ednsOctets st.hdr.edns + 96 * (st'.p - st.p) +
      (if st'.p = len ∧ st.p ≠ len then 96 else 0) ∧
    5 * (st'.arr.rrs.length + ednsCount st'.hdr.edns) + st.p ≤ 5 * (st.arr.rrs.length + ednsCount st.hdr.edns) + st'.p := by
  intro n
  induction n with
  | zero =>
    intro st st' b hp h
    simp only [parseSection, ok.injEq, Prod.mk.injEq] at h
    obtain ⟨rfl, rfl⟩ := h
    exact ⟨Nat.le_refl _, hp, by simp, by omega, by omega⟩
  | succ n ih =>
    intro st st' b hp h
    rw [parseSection] at h
    split at h
    · rename_i he
      simp only [ok.injEq, Prod.mk.injEq] at h
      obtain ⟨rfl, rfl⟩ := h
      exact ⟨Nat.le_refl _, hp, fun _ => he, by omega, by omega⟩
    · rename_i he
      obtain ⟨⟨rr, sz⟩, hr, h⟩ := bind_eq_ok.mp h
      obtain ⟨c1, c2, c3⟩ := parseMessageRr_cost h64 hr
      dsimp only at h
      have fin : ∀ q : SecState, q.p = st.p + sz →
          arrayOctets q.arr + ednsOctets q.hdr.edns ≤ arrayOctets st.arr + ednsOctets st.hdr.edns + 2 * rrOctets rr →
          q.arr.rrs.length + ednsCount q.hdr.edns ≤ st.arr.rrs.length + ednsCount st.hdr.edns + 1 →
          parseSection sec mem len n q = ok (st', b) →
          st.p ≤ st'.p ∧ st'.p ≤ len ∧ (b = true → st'.p = len) ∧
          arrayOctets st'.arr + ednsOctets st'.hdr.edns ≤ arrayOctets st.arr + ednsOctets st.hdr.edns + 96 * (st'.p - st.p) +
            (if st'.p = len ∧ st.p ≠ len then 96 else 0) ∧
          5 * (st'.arr.rrs.length + ednsCount st'.hdr.edns) + st.p ≤ 5 * (st.arr.rrs.length + ednsCount st.hdr.edns) + st'.p := by
        intro q q1 q2 q3 hq
        obtain ⟨i1, i2, i3, i4, i5⟩ := ih q st' b (by omega) hq
        refine ⟨by omega, i2, i3, ?_, by omega⟩
        rw [q1] at i4 i1
        by_cases hx : st.p + sz = len
        · rw [if_pos hx] at c3
          rw [if_neg (by omega)] at i4
          rw [if_pos (by omega)]
          omega
        · rw [if_neg hx] at c3
          by_cases hy : st'.p = len
          · rw [if_pos ⟨hy, he⟩]
            rw [if_pos ⟨hy, hx⟩] at i4
            omega
          · rw [if_neg (by omega)] at i4
            omega
      split at h
      · rename_i ho
        refine fin ⟨st.p + sz, st.arr, parseEdns st.hdr rr⟩ rfl ?_ ?_ h
        · simp only [parseEdns, ednsOctets, rrOctets]
          omega
        · simp only [parseEdns, ednsCount, ho.2]
          simp
      · obtain ⟨arr, ha, h⟩ := bind_eq_ok.mp h
        obtain ⟨g1, g2⟩ := insertRr_cost ha
        exact fin ⟨st.p + sz, arr, st.hdr⟩ rfl (by simp only; omega) (by simp only; omega) h

theorem parseSections_cost {mem : List UInt8} {len : Nat} (h64 : len < 2 ^ 64) : ∀ secs p hdr done hdr' out, p ≤ len →
    parseSections mem len secs p hdr done = ok (hdr', out) →
    (out.map arrayOctets).sum + ednsOctets hdr'.edns ≤ (done.map arrayOctets).sum + ednsOctets hdr.edns + 96 * (len - p) + (if p ≠ len then 96 else 0) ∧
    5 * ((out.map fun a => a.rrs.length).sum + ednsCount hdr'.edns) + p ≤ 5 * ((done.map fun a => a.rrs.length).sum + ednsCount hdr.edns) + len := by
  intro secs
  induction secs with
  | nil =>
    intro p hdr done hdr' out hp h
    simp only [parseSections, ok.injEq, Prod.mk.injEq] at h
    obtain ⟨rfl, rfl⟩ := h
    exact ⟨by omega, by omega⟩
  | cons sc rest ih =>
    intro p hdr done hdr' out hp h
    obtain ⟨sec, count⟩ := sc
    rw [parseSections] at h
    obtain ⟨⟨st, b⟩, hs, h⟩ := bind_eq_ok.mp h
    obtain ⟨c1, c2, c3, c4, c5⟩ := parseSection_cost h64 _ _ _ _ hp hs
    have e0 : arrayOctets .empty = 0 := rfl
    have e1 : (RRsetArray.empty).rrs.length = 0 := rfl
    dsimp only at h c1 c4 c5
    rw [e0] at c4
    rw [e1] at c5
    split at h
    · rename_i hb
      have := c3 hb
      simp only [ok.injEq, Prod.mk.injEq] at h
      obtain ⟨rfl, rfl⟩ := h
      have z : ∀ l : List (Nat × Nat), ((l.map fun _ => RRsetArray.empty).map arrayOctets).sum = 0 ∧
          ((l.map fun _ => RRsetArray.empty).map fun a => a.rrs.length).sum = 0 := by
        intro l
        induction l with
        | nil => simp
        | cons _ l ih => simp only [List.map_cons, List.sum_cons, e0, e1, ih]; simp
      simp only [List.map_append, List.sum_append, List.map_cons, List.map_nil, List.sum_cons, List.sum_nil, z]
      split at c4 <;> constructor <;> (try split) <;> omega
    · obtain ⟨i1, i2⟩ := ih _ _ _ _ _ c2 h
      simp only [List.map_append, List.sum_append, List.map_cons, List.map_nil, List.sum_cons, List.sum_nil] at i1 i2
      refine ⟨?_, by omega⟩
      split at c4
      · split at i1
        · omega
        · split <;> omega
      · split at i1
        · split <;> omega
        · split <;> omega

/-! ## C107 -/

/-- **C107.** Decompressing a name takes at most `min (src - p) 16384 + 382` iterations of the loop, whatever the packet: with any such budget the outcome is
the same and is not "still looping". -/
theorem C107_name_work (cap : Nat) (mem : List UInt8) (p eop src budget : Nat) (h1 : p ≤ src) (h2 : src < eop) (hb : min (src - p) 16384 + 382 ≤ budget) :
    unpackLoop cap mem p eop budget src [] 0 = unpackName cap mem p eop src ∧ unpackName cap mem p eop src ≠ hang := by
  have hn : unpackLoop cap mem p eop budget src [] 0 ≠ hang := by
    by_cases h : src - p ≤ 16384
    · exact unpackLoop_bound _ _ _ _ h1 (by omega) (by omega)
    · exact unpackLoop_bound14 _ _ _ _ h1 (by omega) (by omega)
  have hc := C03_unpack_terminates cap mem p eop src
  refine ⟨?_, hc.1⟩
  have e := hc.2 (max budget (256 * (eop + 2))) (by omega) h2 h1
  rw [← e]
  exact (unpackLoop_mono _ _ _ _ hn _ (by omega)).symm

/-- **C107.** The names and rdatas in a parsed message take at most 96 octets for each octet of the packet behind the header (the octet behind the packet,
which the code can take for the end of a name, counts as one). -/
theorem C107_stored (mem : List UInt8) (len : Nat) (m : Message) (h64 : len < 2 ^ 64) (h : parseMessage mem len = ok m) :
    messageOctets m ≤ 96 * (len - 11) := by
  unfold parseMessage at h
  split at h
  · simp at h
  obtain ⟨hh, _, h⟩ := bind_eq_ok.mp h
  obtain ⟨⟨hdr, secs⟩, hs, h⟩ := bind_eq_ok.mp h
  simp only [ok.injEq] at h
  subst h
  have := (parseSections_cost h64 _ _ _ _ _ _ (by omega) hs).1
  simp only [List.map_nil, List.sum_nil] at this
  have e0 : ednsOctets Edns.zero = 0 := rfl
  rw [e0] at this
  simp only [messageOctets]
  unfold ednsOctets at this
  split at this <;> omega

/-- **C107.** A packet has at most one record for each five octets behind the header, whatever counts the header announces. -/
theorem C107_records (mem : List UInt8) (len : Nat) (m : Message) (h64 : len < 2 ^ 64) (h : parseMessage mem len = ok m) :
    messageRecords m ≤ (len - 12) / 5 := by
  unfold parseMessage at h
  split at h
  · simp at h
  obtain ⟨hh, _, h⟩ := bind_eq_ok.mp h
  obtain ⟨⟨hdr, secs⟩, hs, h⟩ := bind_eq_ok.mp h
  simp only [ok.injEq] at h
  subst h
  have := (parseSections_cost h64 _ _ _ _ _ _ (by omega) hs).2
  simp only [List.map_nil, List.sum_nil] at this
  have e0 : ednsCount Edns.zero = 0 := rfl
  rw [e0] at this
  simp only [messageRecords]
  unfold ednsCount at this
  omega

/-- A packet with a question for a name of 255 octets (at offset 12), and three MINFO records of different classes that point to it three times each. -/
def costlyMsg : List UInt8 :=
  [0, 1, 0x80, 0, 0, 1, 0, 3, 0, 0, 0, 0] ++ (List.replicate 3 (63 :: List.replicate 63 97)).flatten ++ (61 :: List.replicate 61 97) ++ [0, 0, 14, 0, 1] ++
  [1, 2, 3].flatMap fun c => [0xc0, 12, 0, 14, 0, c, 0, 0, 0, 0, 0, 4, 0xc0, 12, 0xc0, 12]

example : (parseMessage costlyMsg costlyMsg.length).Returns ∧ costlyMsg.length = 319 := by constructor <;> decide +kernel
/-- Each of these records takes 16 octets of the packet and 1530 of memory, more than 95 each. -/
example : (match parseMessage costlyMsg costlyMsg.length with | ok m => messageOctets m | _ => 0) = 2 * 255 + 3 * 1530 ∧ 95 * 16 < 1530 := by decide +kernel
example : (match parseMessage sampleMsg 46 with | ok m => (messageOctets m, messageRecords m) | _ => (0, 0)) = (20, 3) := by decide +kernel
example : unpackLoop 255 [3, 99, 111, 109, 0, 1, 97, 0xc0, 0] 0 9 384 5 [] 0 = ok ([1, 97, 3, 99, 111, 109, 0], 7) := by decide +kernel

end Wdns
