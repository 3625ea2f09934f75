import Verif.Lemmas.Be
import Verif.Lemmas.Descr
import Verif.Lemmas.Insert
import Verif.Props.ParseRdata
import Verif.Spec.Message

/-! Helper lemmas for message parsing. -/

namespace Wdns
open Outcome Spec

theorem rdataAt_parse {mem : List UInt8} {eop o rdlen ty cls : Nat} {x : List UInt8} (hm : eop ≤ mem.length)
    (h64 : eop < 2 ^ 64) (hfit : o + rdlen ≤ eop) (hl : rdlen < 65536)
    (h : RdataAt (mem.take eop) o rdlen ty cls x) :
    parseRdata mem 0 eop o rdlen ty cls = ok ⟨x.length % 65536, x⟩ := by
  rcases h with ⟨d, hd, ha, hlay⟩ | ⟨hop, rfl⟩
  · have := pFields_complete (mem := mem) (p := 0) hfit hm h64 hlay (by omega) (by omega) []
    rw [show o + rdlen - o = rdlen by omega] at this
    rw [parseRdata_known hd ha, this]
    simp
  · have hlen : ((mem.take eop).drop o).take rdlen = (mem.drop o).take rdlen :=
      slice_congr (fun j _ _ => getElem?_take_lt (by omega))
    rw [hlen]
    have hwl := take_drop_length mem o rdlen (by omega)
    have := parseRdata_opaque (p := 0) (eop := eop) hop (Win.mk' (mem := mem) (o := o) (n := rdlen) (by omega))
      (by rw [hwl]; exact hl)
    rw [hwl] at this
    rw [this, hwl, Nat.mod_eq_of_lt hl]

theorem parse_rdataAt {msg : List UInt8} {o rdlen ty cls : Nat} {r : CRdata}
    (h64 : msg.length < 2 ^ 64) (hfit : o + rdlen ≤ msg.length) (hl : rdlen < 65536)
    (hsvc : ty = 64 ∨ ty = 65 → cls = 1 → ¬ LongSvc msg o rdlen)
    (h : parseRdata msg 0 msg.length o rdlen ty cls = ok r) :
    ∃ x, RdataAt msg o rdlen ty cls x ∧ r = ⟨x.length % 65536, x⟩ := by
  by_cases hop : Opaque ty cls
  · have hwl := take_drop_length msg o rdlen hfit
    have := parseRdata_opaque (p := 0) (eop := msg.length) hop (Win.mk' (mem := msg) (o := o) (n := rdlen) hfit)
      (by rw [hwl]; exact hl)
    rw [hwl, h, ok.injEq] at this
    exact ⟨_, Or.inr ⟨hop, rfl⟩, by rw [this, hwl, Nat.mod_eq_of_lt hl]⟩
  · unfold Opaque at hop
    simp only [not_forall, Bool.not_eq_false] at hop
    obtain ⟨d, hd, ha⟩ := hop
    obtain ⟨x, hx, hr⟩ := (C40_schema_exact_partial msg 0 o rdlen ty cls d r hd ha h64 (by omega) hfit hl hsvc).mp h
    exact ⟨x, Or.inl ⟨d, hd, ha, hx⟩, hr⟩

theorem u16At_lt (msg : List UInt8) (o : Nat) : u16At msg o < 65536 := be16_lt _ _

theorem rd_getD {mem : List UInt8} {i : Nat} (h : i < mem.length) : rd mem i = ok (mem.getD i 0) := by
  rw [rd_of_lt h]; simp [List.getD, h]

theorem getD_take {mem : List UInt8} {i eop : Nat} (h : i < eop) : (mem.take eop).getD i 0 = mem.getD i 0 := by
  simp [List.getD, h]

/-- `parseMessageRr` after the name, in terms of the fixed fields. -/
theorem parseMessageRr_eq {sec : Nat} {mem : List UInt8} {eop o e : Nat} {nm : List UInt8} {len k : Nat}
    (hu : unpackName maxlenName mem 0 eop o = ok (nm, len)) (hs : skipName mem o eop = ok (e, k))
    (hm : eop ≤ mem.length) :
    parseMessageRr sec mem 0 eop o =
      if e + 4 > eop ∨ (sec ≠ 0 ∧ e + 10 > eop) then err .parseError
      else if sec = 0 then
        ok (⟨0, u16At mem e, u16At mem (e + 2), ⟨len, nm.take len⟩, none⟩, e + 4 - o)
      else if e + 10 + u16At mem (e + 8) > eop then err .overflow
      else (do
        let rdata ← parseRdata mem 0 eop (e + 10) (u16At mem (e + 8)) (u16At mem e) (u16At mem (e + 2))
        ok (⟨u32At mem (e + 4), u16At mem e, u16At mem (e + 2), ⟨len, nm.take len⟩, some rdata⟩,
          e + 10 - o + u16At mem (e + 8))) := by
  unfold parseMessageRr
  rw [hu, ok_bind]
  simp only [hs, ok_bind]
  by_cases h1 : e + 4 > eop ∨ (sec ≠ 0 ∧ e + 10 > eop)
  · rw [if_pos h1, if_pos h1]
  · rw [if_neg h1, if_neg h1]
    rw [rd_getD (i := e) (by omega), rd_getD (i := e + 1) (by omega), rd_getD (i := e + 2) (by omega),
      rd_getD (i := e + 3) (by omega)]
    simp only [ok_bind]
    by_cases h2 : sec = 0
    · rw [if_pos h2, if_pos h2]; rfl
    · rw [if_neg h2, if_neg h2]
      rw [rd_getD (i := e + 4) (by omega), rd_getD (i := e + 5) (by omega), rd_getD (i := e + 6) (by omega),
        rd_getD (i := e + 7) (by omega), rd_getD (i := e + 8) (by omega), rd_getD (i := e + 9) (by omega)]
      rfl

theorem u16At_take {mem : List UInt8} {i eop : Nat} (h : i + 1 < eop) : u16At (mem.take eop) i = u16At mem i := by
  unfold u16At; rw [getD_take (by omega), getD_take (by omega)]

theorem u32At_take {mem : List UInt8} {i eop : Nat} (h : i + 3 < eop) : u32At (mem.take eop) i = u32At mem i := by
  unfold u32At; rw [getD_take (by omega), getD_take (by omega), getD_take (by omega), getD_take (by omega)]

theorem rrAt_bounds {msg sec o o' rr} (h : RRAt msg sec o o' rr) : o < o' ∧ o' ≤ msg.length := by
  cases h with
  | question _ _ h3 h4 => have := encEnd_lt h3; omega
  | record _ _ _ h3 h4 _ => have := encEnd_lt h3; omega

theorem parseMessageRr_complete {sec : Nat} {mem : List UInt8} {eop o o' : Nat} {rr : RR} (hm : eop ≤ mem.length)
    (h64 : eop < 2 ^ 64) (h : RRAt (mem.take eop) sec o o' rr) :
    parseMessageRr sec mem 0 eop o = ok (rr, o' - o) := by
  have htl : (mem.take eop).length = eop := by simp; omega
  cases h with
  | @question o e n h1 h2 h3 h4 =>
    rw [htl] at h4
    have hlt := encEnd_lt h3
    have hu := C02_unpack_complete maxlenName mem 0 eop o n (by decide) (by omega) (by omega) hm h1 h2
    obtain ⟨e', he1, he2, he3⟩ := C08_skip_agrees mem 0 o eop n h64 h1
    have := encEnd_functional h3 he1
    subst this
    rw [parseMessageRr_eq hu he3 hm, if_neg (by omega), if_pos rfl, List.take_length,
      u16At_take (by omega), u16At_take (by omega)]
  | @record _ _ e n x h0 h1 h2 h3 h4 h5 =>
    rw [htl] at h4
    have hlt := encEnd_lt h3
    have hu := C02_unpack_complete maxlenName mem 0 eop o n (by decide) (by omega) (by omega) hm h1 h2
    obtain ⟨e', he1, he2, he3⟩ := C08_skip_agrees mem 0 o eop n h64 h1
    have := encEnd_functional h3 he1
    subst this
    have hlt16 := u16At_lt (mem.take eop) (e + 8)
    have hr := rdataAt_parse hm h64 h4 hlt16 h5
    rw [u16At_take (i := e + 8) (by omega)] at h4
    rw [u16At_take (i := e + 8) (by omega), u16At_take (i := e) (by omega), u16At_take (i := e + 2) (by omega)] at hr
    rw [parseMessageRr_eq hu he3 hm, if_neg (by omega), if_neg h0, if_neg (by omega), hr, List.take_length,
      u16At_take (i := e + 8) (by omega), u16At_take (i := e) (by omega), u16At_take (i := e + 2) (by omega),
      u32At_take (by omega)]
    simp only [ok_bind]
    congr 2
    omega

theorem parseMessageRr_sound {sec : Nat} {msg : List UInt8} {o sz : Nat} {rr : RR} (h64 : msg.length < 2 ^ 64)
    (hno : sec ≠ 0 → RecNoLong msg o)
    (h : parseMessageRr sec msg 0 msg.length o = ok (rr, sz)) : RRAt msg sec o (o + sz) rr := by
  have h' := h
  unfold parseMessageRr at h'
  obtain ⟨⟨nm, len⟩, hu, -⟩ := bind_eq_ok.mp h'
  have hb : o < msg.length := by
    unfold unpackName at hu
    split at hu
    · simp at hu
    · omega
  obtain ⟨n, hd, hwf, rfl, rfl⟩ := (C02_unpack_exact_partial maxlenName msg 0 o nm len
    (by decide) (by omega) hb).mp hu
  obtain ⟨e, he1, he2, he3⟩ := C08_skip_agrees_unpack msg 0 o _ _ h64 hu
  have hlt := encEnd_lt he1
  rw [parseMessageRr_eq hu he3 (Nat.le_refl _), List.take_length] at h
  split at h
  · simp at h
  · split at h
    · rename_i h0
      simp only [ok.injEq, Prod.mk.injEq] at h
      obtain ⟨rfl, rfl⟩ := h
      subst h0
      rw [show o + (e + 4 - o) = e + 4 by omega]
      exact .question hd hwf he1 (by omega)
    · rename_i h0
      split at h
      · simp at h
      · obtain ⟨r, hr, h⟩ := bind_eq_ok.mp h
        simp only [ok.injEq, Prod.mk.injEq] at h
        obtain ⟨rfl, rfl⟩ := h
        obtain ⟨x, hx, rfl⟩ := parse_rdataAt h64 (by omega) (u16At_lt _ _)
          (fun hs hc => hno h0 e he1 hs hc) hr
        rw [show o + (e + 10 - o + u16At msg (e + 8)) = e + 10 + u16At msg (e + 8) by omega]
        exact .record h0 hd hwf he1 (by omega) hx

/-! ### where the records are -/

/-- Where a parsed record ends, whatever follows the packet. -/
theorem parseMessageRr_step {sec : Nat} {mem : List UInt8} {eop o sz : Nat} {rr : RR} (hm : eop ≤ mem.length) (h64 : eop < 2 ^ 64)
    (h : parseMessageRr sec mem 0 eop o = ok (rr, sz)) :
    ∃ e, EncEnd (mem.take eop) o e ∧ e + 4 ≤ eop ∧ o + sz ≤ eop ∧ o < o + sz ∧
      o + sz = (if sec = 0 then e + 4 else e + 10 + u16At (mem.take eop) (e + 8)) := by
  have h' := h
  unfold parseMessageRr at h'
  obtain ⟨⟨nm, len⟩, hu, h'⟩ := bind_eq_ok.mp h'
  obtain ⟨⟨s, k⟩, hs, -⟩ := bind_eq_ok.mp h'
  obtain ⟨_, h2, n, e, _, _, _, _, he1, he2, he3, he4⟩ := unpack_skip h64 hu hs
  have hlt := encEnd_lt he1
  rw [parseMessageRr_eq hu hs hm] at h
  split at h
  · simp at h
  rename_i hb
  have hse : s = e := by omega
  subst hse
  have hee := encEnd_shrink he1 (by omega)
  split at h
  · rename_i h0
    simp only [ok.injEq, Prod.mk.injEq] at h
    obtain ⟨_, rfl⟩ := h
    exact ⟨s, hee, by omega, by omega, by omega, by rw [if_pos h0]; omega⟩
  · rename_i h0
    split at h
    · simp at h
    · obtain ⟨r, hr, h⟩ := bind_eq_ok.mp h
      simp only [ok.injEq, Prod.mk.injEq] at h
      obtain ⟨_, rfl⟩ := h
      refine ⟨s, hee, by omega, by omega, by omega, ?_⟩
      rw [if_neg h0, u16At_take (by omega)]
      omega

theorem walk_append {msg : List UInt8} {q : Bool} {a b o o₁ o₂ : Nat} (h : Walk msg q a o o₁) (h' : Walk msg q b o₁ o₂) : Walk msg q (a + b) o o₂ := by
  induction h with
  | zero => simpa using h'
  | succ h1 h2 ih => rw [Nat.add_right_comm]; exact .succ h1 (ih h')

theorem recNoLong_end (msg : List UInt8) : RecNoLong msg msg.length :=
  fun _ he => absurd (encEnd_lt_length he) (by omega)

theorem walk_end {msg : List UInt8} {q : Bool} {n o' : Nat} (h : Walk msg q n msg.length o') : o' = msg.length := by
  cases h with
  | zero => rfl
  | succ h1 _ => exact absurd (encEnd_lt_length h1) (by omega)

/-- No record of these sections, from `p` on, has an overlong SvcParam. -/
def CleanFrom (msg : List UInt8) : List (Nat × Nat) → Nat → Prop
  | [], _ => True
  | (sec, n) :: secs, p => (∀ j < n, ∀ o, Walk msg (sec = 0) j p o → sec ≠ 0 → RecNoLong msg o) ∧
      ∀ p', Walk msg (sec = 0) n p p' → CleanFrom msg secs p'

theorem cleanFrom_end (msg : List UInt8) : ∀ secs, CleanFrom msg secs msg.length
  | [] => trivial
  | (sec, n) :: secs => by
    refine ⟨?_, ?_⟩
    · intro j _ o h _
      rw [walk_end h]; exact recNoLong_end msg
    · intro p' h
      rw [walk_end h]; exact cleanFrom_end msg secs

theorem cleanFrom_of_svcNoLong {msg : List UInt8} (h : SvcNoLong msg) :
    CleanFrom msg [(0, u16At msg 4), (1, u16At msg 6), (2, u16At msg 8), (3, u16At msg 10)] 12 := by
  refine ⟨fun j _ o _ h0 => absurd rfl h0, fun p hp => ?_⟩
  have hp : Walk msg true (u16At msg 4) 12 p := by simpa using hp
  refine ⟨fun j hj o hw _ => h p j o hp (by omega) (by simpa using hw), fun p1 h1 => ?_⟩
  have h1 : Walk msg false (u16At msg 6) p p1 := by simpa using h1
  refine ⟨fun j hj o hw _ => h p (u16At msg 6 + j) o hp (by omega) (walk_append h1 (by simpa using hw)), fun p2 h2 => ?_⟩
  have h2 : Walk msg false (u16At msg 8) p1 p2 := by simpa using h2
  exact ⟨fun j hj o hw _ => h p (u16At msg 6 + u16At msg 8 + j) o hp (by omega) (walk_append (walk_append h1 h2) (by simpa using hw)), fun _ _ => trivial⟩

/-! ### validity of parsed records -/

/-- The blocks of a record of section `sec` are as long as they claim. -/
def ValidIn (sec : Nat) (rr : RR) : Prop :=
  rr.name.Valid ∧ (sec ≠ 0 → ∃ d, rr.rdata = some d ∧ d.Valid)

theorem parseRdata_valid {mem p eop o rdlen ty cls} {r : CRdata}
    (h : parseRdata mem p eop o rdlen ty cls = ok r) : r.Valid := by
  have key : ∀ st : PState, CRdata.Valid ⟨st.out.length % 65536, st.out⟩ := fun st => Nat.mod_le _ _
  unfold parseRdata at h
  cases hd : recordDescr ty with
  | none =>
    simp only [hd] at h
    obtain ⟨st, _, h⟩ := bind_eq_ok.mp h
    simp only [ok.injEq] at h
    subst h; exact key st
  | some d =>
    simp only [hd] at h
    split at h
    · obtain ⟨st, _, h⟩ := bind_eq_ok.mp h
      split at h
      · simp at h
      · simp only [ok_bind, ok.injEq] at h
        subst h; exact key st
    · obtain ⟨st, _, h⟩ := bind_eq_ok.mp h
      simp only [ok.injEq] at h
      subst h; exact key st

theorem parseRdata_len {mem p eop o rdlen ty cls} {r : CRdata}
    (h : parseRdata mem p eop o rdlen ty cls = ok r) : r.len < 2 ^ 16 := by
  have key : ∀ st : PState, CRdata.len ⟨st.out.length % 65536, st.out⟩ < 2 ^ 16 := fun st => Nat.mod_lt _ (by omega)
  unfold parseRdata at h
  cases hd : recordDescr ty with
  | none =>
    simp only [hd] at h
    obtain ⟨st, _, h⟩ := bind_eq_ok.mp h
    simp only [ok.injEq] at h
    subst h; exact key st
  | some d =>
    simp only [hd] at h
    split at h
    · obtain ⟨st, _, h⟩ := bind_eq_ok.mp h
      split at h
      · simp at h
      · simp only [ok_bind, ok.injEq] at h
        subst h; exact key st
    · obtain ⟨st, _, h⟩ := bind_eq_ok.mp h
      simp only [ok.injEq] at h
      subst h; exact key st

theorem parseMessageRr_valid {sec : Nat} {mem : List UInt8} {p eop o sz : Nat} {rr : RR}
    (h : parseMessageRr sec mem p eop o = ok (rr, sz)) :
    ValidIn sec rr ∧ (∃ n, WF n ∧ rr.name = ⟨(wire n).length, wire n⟩) ∧
      (sec = 0 → rr.rdata = none ∧ rr.rrttl = 0) ∧
      rr.rrttl < 2 ^ 32 ∧ rr.rrtype < 2 ^ 16 ∧ rr.rrclass < 2 ^ 16 := by
  unfold parseMessageRr at h
  obtain ⟨⟨nm, len⟩, hu, h⟩ := bind_eq_ok.mp h
  obtain ⟨n, hn, rfl, rfl⟩ := C01_unpacked_wellformed _ _ _ _ _ _ _ hu
  simp only at h
  obtain ⟨⟨src, k⟩, _, h⟩ := bind_eq_ok.mp h
  simp only at h
  split at h
  · simp at h
  · obtain ⟨t0, _, h⟩ := bind_eq_ok.mp h
    obtain ⟨t1, _, h⟩ := bind_eq_ok.mp h
    obtain ⟨c0, _, h⟩ := bind_eq_ok.mp h
    obtain ⟨c1, _, h⟩ := bind_eq_ok.mp h
    split at h
    · rename_i h0
      simp only [ok.injEq, Prod.mk.injEq] at h
      obtain ⟨rfl, rfl⟩ := h
      refine ⟨⟨?_, fun h => absurd h0 h⟩, ⟨n, hn, by simp⟩, by simp, by simp, be16_lt _ _, be16_lt _ _⟩
      simp [CName.Valid]
    · rename_i h0
      obtain ⟨l0, _, h⟩ := bind_eq_ok.mp h
      obtain ⟨l1, _, h⟩ := bind_eq_ok.mp h
      obtain ⟨l2, _, h⟩ := bind_eq_ok.mp h
      obtain ⟨l3, _, h⟩ := bind_eq_ok.mp h
      obtain ⟨n0, _, h⟩ := bind_eq_ok.mp h
      obtain ⟨n1, _, h⟩ := bind_eq_ok.mp h
      split at h
      · simp at h
      · obtain ⟨r, hr, h⟩ := bind_eq_ok.mp h
        simp only [ok.injEq, Prod.mk.injEq] at h
        obtain ⟨rfl, rfl⟩ := h
        refine ⟨⟨?_, fun _ => ⟨r, rfl, parseRdata_valid hr⟩⟩, ⟨n, hn, by simp⟩, fun h => absurd h h0,
          be32_lt _ _ _ _, be16_lt _ _, be16_lt _ _⟩
        simp [CName.Valid]

/-! ### reading all records, then assembling -/

/-- The records of one section as the parser reads them. -/
def readSec (sec : Nat) (mem : List UInt8) (len : Nat) : Nat → Nat → Outcome (List RR × Nat)
  | 0, p => ok ([], p)
  | n + 1, p =>
    if p = len then ok ([], p)
    else do
      let (rr, sz) ← parseMessageRr sec mem 0 len p
      let (rrs, p') ← readSec sec mem len n (p + sz)
      ok (rr :: rrs, p')

/-- Removing the first OPT record, unless one has been seen. -/
def strip (present : Bool) (rrs : List RR) : List RR :=
  if present then rrs else rrs.eraseP (fun r => r.rrtype = 41)

/-- The header after the records have been seen. -/
def hdrAfter (h : Hdr) (rrs : List RR) : Hdr :=
  if h.edns.present then h
  else match rrs.find? (fun r => r.rrtype = 41) with
    | none => h
    | some r => parseEdns h r

theorem insertAll_append {sec} : ∀ {a : RRsetArray} {xs ys : List RR},
    insertAll sec a (xs ++ ys) = insertAll sec a xs >>= fun a' => insertAll sec a' ys := by
  intro a xs
  induction xs generalizing a with
  | nil => intro ys; rfl
  | cons x xs ih =>
    intro ys
    simp only [List.cons_append, insertAll]
    cases insertRr a x sec with
    | ok a' => simp only [ok_bind]; exact ih
    | _ => rfl

theorem insertAll_valid {sec : Nat} {rrs : List RR} (hv : ∀ r ∈ rrs, ValidIn sec r) (hl : rrs.length < 65536) :
    ∃ a, insertAll sec .empty rrs = ok a := by
  by_cases h : sec = 0
  · subst h
    exact ⟨_, insertAll_question rrs ⟨[], []⟩ (fun r hr => (hv r hr).1) (by simp; omega) (by simp; omega)⟩
  · obtain ⟨a, e, _⟩ := insertAll_grouped h rrs [] ⟨[], []⟩ grouped_nil
      (fun r hr => ⟨(hv r hr).1, (hv r hr).2 h⟩) (by simp; omega)
    exact ⟨a, e⟩

theorem readSec_valid {sec : Nat} {mem : List UInt8} {len : Nat} : ∀ {n p rrs p'},
    readSec sec mem len n p = ok (rrs, p') → rrs.length ≤ n ∧ ∀ r ∈ rrs, ∃ o sz, parseMessageRr sec mem 0 len o = ok (r, sz) := by
  intro n
  induction n with
  | zero => intro p rrs p' h; simp only [readSec, ok.injEq, Prod.mk.injEq] at h; simp [← h.1]
  | succ n ih =>
    intro p rrs p' h
    simp only [readSec] at h
    split at h
    · simp only [ok.injEq, Prod.mk.injEq] at h; simp [← h.1]
    · obtain ⟨⟨rr, sz⟩, h1, h⟩ := bind_eq_ok.mp h
      obtain ⟨⟨rrs', p1⟩, h2, h⟩ := bind_eq_ok.mp h
      simp only [ok.injEq, Prod.mk.injEq] at h
      obtain ⟨rfl, rfl⟩ := h
      obtain ⟨h3, h4⟩ := ih h2
      refine ⟨by simp; omega, ?_⟩
      intro r hr
      rcases List.mem_cons.mp hr with rfl | hr
      · exact ⟨p, sz, h1⟩
      · exact h4 r hr

theorem strip_true (rrs : List RR) : strip true rrs = rrs := rfl

theorem parseEdns_present (h : Hdr) (rr : RR) : (parseEdns h rr).edns.present = true := rfl

/-- One section: read the records, drop the first OPT, insert the others. -/
theorem parseSection_eq {sec : Nat} {mem : List UInt8} {len : Nat} : ∀ {n p : Nat} {pre : List RR} {arr : RRsetArray}
    {hdr : Hdr}, insertAll sec .empty pre = ok arr → (∀ r ∈ pre, ValidIn sec r) → pre.length + n < 65536 →
    ((∃ rrs p' arr' ret, readSec sec mem len n p = ok (rrs, p') ∧
      insertAll sec .empty (pre ++ strip hdr.edns.present rrs) = ok arr' ∧
      parseSection sec mem len n ⟨p, arr, hdr⟩ = ok (⟨p', arr', hdrAfter hdr rrs⟩, ret) ∧ (ret = true → p' = len)) ∨
     (∃ r, readSec sec mem len n p = err r ∧ parseSection sec mem len n ⟨p, arr, hdr⟩ = err r) ∨
     (readSec sec mem len n p = ub ∧ parseSection sec mem len n ⟨p, arr, hdr⟩ = ub) ∨
     (readSec sec mem len n p = hang ∧ parseSection sec mem len n ⟨p, arr, hdr⟩ = hang) ∨
     (readSec sec mem len n p = abort ∧ parseSection sec mem len n ⟨p, arr, hdr⟩ = abort)) := by
  intro n
  induction n with
  | zero =>
    intro p pre arr hdr h1 h2 h3
    left
    refine ⟨[], p, arr, false, rfl, ?_, ?_, by simp⟩
    · simp [strip, h1]
    · simp [parseSection, hdrAfter]
  | succ n ih =>
    intro p pre arr hdr h1 h2 h3
    simp only [readSec, parseSection]
    by_cases hp : p = len
    · simp only [hp, if_true]
      left
      refine ⟨[], len, arr, true, rfl, ?_, ?_, fun _ => rfl⟩
      · simp [strip, h1]
      · simp [hdrAfter]
    · simp only [hp, if_false]
      cases hrr : parseMessageRr sec mem 0 len p with
      | ub => simp
      | hang => simp
      | abort => simp
      | err r => simp
      | ok v =>
        obtain ⟨rr, sz⟩ := v
        simp only [ok_bind]
        have hv := (parseMessageRr_valid hrr).1
        by_cases hopt : rr.rrtype = 41 ∧ hdr.edns.present = false
        · rw [if_pos hopt]
          rcases ih (p := p + sz) (hdr := parseEdns hdr rr) h1 h2 (by omega) with
            ⟨rrs, p', arr', ret, a1, a2, a3, a4⟩ | ⟨r, a1, a2⟩ | ⟨a1, a2⟩ | ⟨a1, a2⟩ | ⟨a1, a2⟩
          · left
            refine ⟨rr :: rrs, p', arr', ret, by rw [a1]; rfl, ?_, ?_, a4⟩
            · rw [parseEdns_present, strip_true] at a2
              simp only [strip, hopt.2, Bool.false_eq_true, if_false]
              rw [List.eraseP_cons_of_pos (by simpa using hopt.1)]
              exact a2
            · rw [a3]
              simp [hdrAfter, parseEdns_present, hopt.2, hopt.1]
          all_goals simp [a1, a2]
        · rw [if_neg hopt]
          obtain ⟨arr1, harr1⟩ := insertAll_valid (sec := sec) (rrs := pre ++ [rr])
            (by intro r hr; rcases List.mem_append.mp hr with h | h
                · exact h2 r h
                · simp at h; subst h; exact hv) (by simp; omega)
          have hins : insertRr arr rr sec = ok arr1 := by
            rw [insertAll_append, h1, ok_bind] at harr1
            simp only [insertAll] at harr1
            cases hi : insertRr arr rr sec <;> simp_all
          rw [hins, ok_bind]
          rcases ih (p := p + sz) (hdr := hdr) harr1
            (by intro r hr; rcases List.mem_append.mp hr with h | h
                · exact h2 r h
                · simp at h; subst h; exact hv) (by simp; omega) with
            ⟨rrs, p', arr', ret, a1, a2, a3, a4⟩ | ⟨r, a1, a2⟩ | ⟨a1, a2⟩ | ⟨a1, a2⟩ | ⟨a1, a2⟩
          · left
            refine ⟨rr :: rrs, p', arr', ret, by rw [a1]; rfl, ?_, ?_, a4⟩
            · rw [← a2]
              congr 1
              unfold strip
              cases hpr : hdr.edns.present with
              | true => simp
              | false =>
                have : rr.rrtype ≠ 41 := fun h => hopt ⟨h, hpr⟩
                simp [this]
            · rw [a3]
              unfold hdrAfter
              cases hpr : hdr.edns.present with
              | true => simp
              | false =>
                have : rr.rrtype ≠ 41 := fun h => hopt ⟨h, hpr⟩
                simp [this]
          all_goals simp [a1, a2]

/-- All records as the parser reads them, tagged with their section. -/
def readAll (mem : List UInt8) (len : Nat) : List (Nat × Nat) → Nat → Outcome (List (Nat × RR))
  | [], _ => ok []
  | (sec, c) :: rest, p => do
    let (rrs, p') ← readSec sec mem len c p
    let more ← readAll mem len rest p'
    ok (rrs.map (sec, ·) ++ more)

theorem readAll_len {mem : List UInt8} {len : Nat} : ∀ secs, readAll mem len secs len = ok [] := by
  intro secs
  induction secs with
  | nil => rfl
  | cons s rest ih =>
    obtain ⟨sec, c⟩ := s
    have : readSec sec mem len c len = ok ([], len) := by cases c <;> simp [readSec]
    simp [readAll, this, ih]

theorem hdrAfter_present (h : Hdr) (a : List RR) :
    (hdrAfter h a).edns.present = (h.edns.present || a.any (fun r => r.rrtype = 41)) := by
  unfold hdrAfter
  cases hp : h.edns.present with
  | true => simp [hp]
  | false =>
    cases hf : a.find? (fun r => r.rrtype = 41) with
    | none =>
      simp only [Bool.false_eq_true, if_false, hp, Bool.false_or]
      symm
      rw [List.any_eq_false]
      exact List.find?_eq_none.mp hf
    | some r =>
      simp only [Bool.false_eq_true, if_false, parseEdns_present, Bool.false_or]
      symm
      rw [List.any_eq_true]
      exact ⟨r, List.mem_of_find?_eq_some hf, (List.find?_some hf :)⟩

theorem hdrAfter_append (h : Hdr) (a b : List RR) : hdrAfter (hdrAfter h a) b = hdrAfter h (a ++ b) := by
  cases hp : h.edns.present with
  | true =>
    have h1 : ∀ l, hdrAfter h l = h := by intro l; simp [hdrAfter, hp]
    rw [h1, h1, h1]
  | false =>
    cases hf : a.find? (fun r => r.rrtype = 41) with
    | none =>
      have h1 : hdrAfter h a = h := by simp [hdrAfter, hp, hf]
      rw [h1]
      simp [hdrAfter, hp, List.find?_append, hf]
    | some r =>
      have h1 : hdrAfter h a = parseEdns h r := by simp [hdrAfter, hp, hf]
      have h2 : hdrAfter h (a ++ b) = parseEdns h r := by simp [hdrAfter, hp, List.find?_append, hf]
      rw [h1, h2]
      simp [hdrAfter, parseEdns_present]

/-- Removing the first OPT record of a tagged list, unless one has been seen. -/
def stripT (present : Bool) (all : List (Nat × RR)) : List (Nat × RR) :=
  if present then all else all.eraseP isOpt

theorem stripT_append (b : Bool) (sec : Nat) (rrs : List RR) (more : List (Nat × RR)) :
    stripT b (rrs.map (sec, ·) ++ more) =
      (strip b rrs).map (sec, ·) ++ stripT (b || rrs.any (fun r => r.rrtype = 41)) more := by
  unfold stripT strip
  cases b with
  | true => simp
  | false =>
    simp only [Bool.false_eq_true, if_false, Bool.false_or]
    have he : (rrs.eraseP (fun r => r.rrtype = 41)).map (sec, ·) = (rrs.map (sec, ·)).eraseP isOpt := by
      rw [List.eraseP_map]; rfl
    cases ha : rrs.any (fun r => r.rrtype = 41) with
    | true =>
      rw [List.any_eq_true] at ha
      obtain ⟨r, hr, hp⟩ := ha
      rw [List.eraseP_append_left (a := (sec, r)) (by simpa [isOpt] using hp) _ (by simp [hr]), he]
      simp
    | false =>
      rw [List.any_eq_false] at ha
      rw [List.eraseP_append_right _ (by
        intro b hb
        simp only [List.mem_map] at hb
        obtain ⟨r, hr, rfl⟩ := hb
        simpa [isOpt] using ha r hr)]
      rw [List.eraseP_of_forall_not (fun r hr => ha r hr)]
      simp

theorem readAll_tags {mem : List UInt8} {len : Nat} : ∀ {secs p all}, readAll mem len secs p = ok all →
    ∀ r ∈ all, r.1 ∈ secs.map Prod.fst := by
  intro secs
  induction secs with
  | nil => intro p all h; simp only [readAll, ok.injEq] at h; simp [← h]
  | cons s rest ih =>
    obtain ⟨sec, c⟩ := s
    intro p all h
    simp only [readAll] at h
    obtain ⟨⟨rrs, p'⟩, h1, h⟩ := bind_eq_ok.mp h
    obtain ⟨more, h2, h⟩ := bind_eq_ok.mp h
    simp only [ok.injEq] at h
    subst h
    intro r hr
    rcases List.mem_append.mp hr with hr | hr
    · simp only [List.mem_map] at hr
      obtain ⟨_, _, rfl⟩ := hr
      simp
    · have := ih h2 r hr
      simp only [List.map_cons, List.mem_cons]
      exact Or.inr this

theorem stripT_subset (b : Bool) (all : List (Nat × RR)) : ∀ r ∈ stripT b all, r ∈ all := by
  unfold stripT
  intro r hr
  split at hr
  · exact hr
  · exact List.mem_of_mem_eraseP hr

/-- `arrs` holds, per section, the records of that section. -/
def Assembled (rest : List (Nat × RR)) : List (Nat × Nat) → List RRsetArray → Prop
  | [], arrs => arrs = []
  | (sec, _) :: secs, arrs => ∃ a as, arrs = a :: as ∧
      insertAll sec .empty ((rest.filter (fun r => r.1 = sec)).map Prod.snd) = ok a ∧ Assembled rest secs as

theorem assembled_congr {l l' : List (Nat × RR)} : ∀ {secs arrs},
    (∀ s ∈ secs.map Prod.fst, (l.filter (fun r => r.1 = s)) = (l'.filter (fun r => r.1 = s))) →
    Assembled l secs arrs → Assembled l' secs arrs := by
  intro secs
  induction secs with
  | nil => intro arrs _ h; exact h
  | cons s secs ih =>
    obtain ⟨sec, c⟩ := s
    intro arrs h
    rintro ⟨a, as, rfl, h1, h2⟩
    refine ⟨a, as, rfl, ?_, ih (fun s hs => h s (by simp [hs])) h2⟩
    rw [← h sec (by simp)]; exact h1

theorem assembled_nil : ∀ secs : List (Nat × Nat), Assembled [] secs (secs.map fun _ => .empty) := by
  intro secs
  induction secs with
  | nil => rfl
  | cons s secs ih => obtain ⟨sec, c⟩ := s; exact ⟨_, _, rfl, rfl, ih⟩

theorem parseSections_eq {mem : List UInt8} {len : Nat} : ∀ {secs : List (Nat × Nat)} {p : Nat} {hdr : Hdr}
    {done : List RRsetArray}, (secs.map Prod.fst).Nodup → (∀ s ∈ secs, s.2 < 65536) →
    ((∃ all arrs, readAll mem len secs p = ok all ∧
      parseSections mem len secs p hdr done = ok (hdrAfter hdr (all.map Prod.snd), done ++ arrs) ∧
      Assembled (stripT hdr.edns.present all) secs arrs) ∨
     (∃ r, readAll mem len secs p = err r ∧ parseSections mem len secs p hdr done = err r) ∨
     (readAll mem len secs p = ub ∧ parseSections mem len secs p hdr done = ub) ∨
     (readAll mem len secs p = hang ∧ parseSections mem len secs p hdr done = hang) ∨
     (readAll mem len secs p = abort ∧ parseSections mem len secs p hdr done = abort)) := by
  intro secs
  induction secs with
  | nil =>
    intro p hdr done _ _
    left
    exact ⟨[], [], rfl, by simp [parseSections, hdrAfter], rfl⟩
  | cons s secs ih =>
    obtain ⟨sec, c⟩ := s
    intro p hdr done hnd hc
    simp only [readAll, parseSections]
    simp only [List.map_cons, List.nodup_cons] at hnd
    have hc0 := hc (sec, c) (by simp)
    rcases parseSection_eq (mem := mem) (len := len) (sec := sec) (n := c) (p := p) (pre := []) (arr := .empty)
      (hdr := hdr) rfl (by simp) (by simpa using hc0) with
      ⟨rrs, p', arr', ret, a1, a2, a3, a4⟩ | ⟨r, a1, a2⟩ | ⟨a1, a2⟩ | ⟨a1, a2⟩ | ⟨a1, a2⟩
    · rw [List.nil_append] at a2
      rw [a1, a3]
      simp only [ok_bind]
      have hfil : ∀ (rrs : List RR) (sec : Nat), (rrs.map (sec, ·)).filter (fun r => r.1 = sec) = rrs.map (sec, ·) := by
        intro rrs sec
        rw [List.filter_eq_self]
        intro r hr
        simp only [List.mem_map] at hr
        obtain ⟨_, _, rfl⟩ := hr
        simp
      have hfil2 : ∀ (rrs : List RR) (s : Nat), s ≠ sec → (rrs.map (sec, ·)).filter (fun r => r.1 = s) = [] := by
        intro rrs s hs
        rw [List.filter_eq_nil_iff]
        intro r hr
        simp only [List.mem_map] at hr
        obtain ⟨_, _, rfl⟩ := hr
        simp [Ne.symm hs]
      cases ret with
      | true =>
        have := a4 rfl
        subst this
        simp only [if_true]
        left
        refine ⟨rrs.map (sec, ·), arr' :: secs.map fun _ => .empty, by simp [readAll_len], ?_, ?_⟩
        · simp [Function.comp_def]
        · refine ⟨arr', _, rfl, ?_, ?_⟩
          · have := stripT_append hdr.edns.present sec rrs []
            rw [List.append_nil] at this
            have h0 : ∀ b, stripT b [] = [] := by intro b; unfold stripT; split <;> rfl
            rw [this, h0, List.append_nil, hfil]
            simpa [Function.comp_def] using a2
          · refine assembled_congr ?_ (assembled_nil secs)
            intro s hs
            symm
            rw [List.filter_nil, List.filter_eq_nil_iff]
            intro r hr
            have := stripT_subset _ _ r hr
            simp only [List.mem_map] at this
            obtain ⟨_, _, rfl⟩ := this
            have : sec ≠ s := fun h => hnd.1 (h ▸ hs)
            simp [this]
      | false =>
        simp only [Bool.false_eq_true, if_false]
        rcases ih (p := p') (hdr := hdrAfter hdr rrs) (done := done ++ [arr']) hnd.2
          (fun s hs => hc s (by simp [hs])) with
          ⟨more, arrs, b1, b2, b3⟩ | ⟨r, b1, b2⟩ | ⟨b1, b2⟩ | ⟨b1, b2⟩ | ⟨b1, b2⟩
        · left
          refine ⟨rrs.map (sec, ·) ++ more, arr' :: arrs, by rw [b1]; rfl, ?_, ?_⟩
          · rw [b2, hdrAfter_append]
            simp [Function.comp_def]
          · rw [hdrAfter_present] at b3
            rw [stripT_append]
            refine ⟨arr', arrs, rfl, ?_, ?_⟩
            · rw [List.filter_append, hfil]
              have : (stripT (hdr.edns.present || rrs.any fun r => r.rrtype = 41) more).filter (fun r => r.1 = sec) = [] := by
                rw [List.filter_eq_nil_iff]
                intro r hr
                have h1 := readAll_tags b1 r (stripT_subset _ _ r hr)
                have : r.1 ≠ sec := fun h => hnd.1 (h ▸ h1)
                simp [this]
              rw [this]
              simpa [Function.comp_def] using a2
            · refine assembled_congr ?_ b3
              intro s hs
              rw [List.filter_append, hfil2 _ _ (fun h => hnd.1 (h ▸ hs))]
              simp
        all_goals simp [b1, b2]
    all_goals simp [a1, a2]

/-! ### the records of the packet -/

theorem recs_of_readSec {sec : Nat} {msg : List UInt8} (h64 : msg.length < 2 ^ 64) :
    ∀ {n o rrs o'}, o ≤ msg.length → (∀ j < n, ∀ o', Walk msg (sec = 0) j o o' → sec ≠ 0 → RecNoLong msg o') →
    readSec sec msg msg.length n o = ok (rrs, o') →
    Recs msg sec n o rrs o' ∧ o' ≤ msg.length := by
  intro n
  induction n with
  | zero =>
    intro o rrs o' ho _ h
    simp only [readSec, ok.injEq, Prod.mk.injEq] at h
    obtain ⟨rfl, rfl⟩ := h
    exact ⟨.zero, ho⟩
  | succ n ih =>
    intro o rrs o' ho hno h
    simp only [readSec] at h
    split at h
    · rename_i hl
      simp only [ok.injEq, Prod.mk.injEq] at h
      obtain ⟨rfl, rfl⟩ := h
      subst hl
      exact ⟨.stop, ho⟩
    · obtain ⟨⟨rr, sz⟩, h1, h⟩ := bind_eq_ok.mp h
      obtain ⟨⟨rrs', p1⟩, h2, h⟩ := bind_eq_ok.mp h
      simp only [ok.injEq, Prod.mk.injEq] at h
      obtain ⟨rfl, rfl⟩ := h
      have hr := parseMessageRr_sound h64 (hno 0 (by omega) o .zero) h1
      obtain ⟨e, he, _, _, _, hst⟩ := parseMessageRr_step (Nat.le_refl _) h64 h1
      rw [List.take_length] at he hst
      obtain ⟨h3, h4⟩ := ih (rrAt_bounds hr).2 (fun j hj o' hw => hno (j + 1) (by omega) o' (.succ he (by
        simp only [decide_eq_true_eq]; rw [← hst]; exact hw))) h2
      exact ⟨.cons (by omega) hr h3, h4⟩

/-- Where a section ends. -/
theorem readSec_walk {sec : Nat} {mem : List UInt8} {len : Nat} (hm : len ≤ mem.length) (h64 : len < 2 ^ 64) : ∀ {n o rrs o'},
    readSec sec mem len n o = ok (rrs, o') → Walk (mem.take len) (sec = 0) n o o' ∨ o' = len := by
  intro n
  induction n with
  | zero =>
    intro o rrs o' h
    simp only [readSec, ok.injEq, Prod.mk.injEq] at h
    obtain ⟨_, rfl⟩ := h
    exact .inl .zero
  | succ n ih =>
    intro o rrs o' h
    simp only [readSec] at h
    split at h
    · rename_i hl
      simp only [ok.injEq, Prod.mk.injEq] at h
      exact .inr (by omega)
    · obtain ⟨⟨rr, sz⟩, h1, h⟩ := bind_eq_ok.mp h
      obtain ⟨⟨rrs', p1⟩, h2, h⟩ := bind_eq_ok.mp h
      simp only [ok.injEq, Prod.mk.injEq] at h
      obtain ⟨rfl, rfl⟩ := h
      obtain ⟨e, he, _, _, _, hst⟩ := parseMessageRr_step hm h64 h1
      rcases ih h2 with hw | hw
      · exact .inl (.succ he (by simp only [decide_eq_true_eq]; rw [← hst]; exact hw))
      · exact .inr hw

theorem cleanFrom_next {sec n : Nat} {mem : List UInt8} {len : Nat} (hm : len ≤ mem.length) (h64 : len < 2 ^ 64) {secs} {o rrs o'}
    (hc : CleanFrom (mem.take len) ((sec, n) :: secs) o) (h : readSec sec mem len n o = ok (rrs, o')) : CleanFrom (mem.take len) secs o' := by
  rcases readSec_walk hm h64 h with hw | hw
  · exact hc.2 o' hw
  · subst hw
    have := cleanFrom_end (mem.take o') secs
    rwa [List.length_take, Nat.min_eq_left hm] at this

theorem readSec_of_recs {sec : Nat} {mem : List UInt8} {len : Nat} (hm : len ≤ mem.length) (h64 : len < 2 ^ 64)
    {n o rrs o'} (h : Recs (mem.take len) sec n o rrs o') : readSec sec mem len n o = ok (rrs, o') := by
  have htl : (mem.take len).length = len := by simp; omega
  induction h with
  | zero => rfl
  | stop => simp [readSec, htl]
  | @cons n o o₁ o' rr rrs h1 h2 h3 ih =>
    rw [htl] at h1
    have hb := rrAt_bounds h2
    simp only [readSec]
    rw [if_neg (by omega), parseMessageRr_complete hm h64 h2]
    simp only [ok_bind]
    rw [show o + (o₁ - o) = o₁ by omega, ih]
    rfl

theorem sectionIs_of_insertAll {sec : Nat} {rrs : List RR} {a : RRsetArray} (hv : ∀ r ∈ rrs, ValidIn sec r)
    (hl : rrs.length < 65536) (h : insertAll sec .empty rrs = ok a) : SectionIs sec rrs a := by
  unfold SectionIs
  by_cases h0 : sec = 0
  · subst h0
    rw [if_pos rfl]
    have := insertAll_question rrs ⟨[], []⟩ (fun r hr => (hv r hr).1) (by simp; omega) (by simp; omega)
    rw [show (⟨[], []⟩ : RRsetArray) = .empty from rfl, h, ok.injEq] at this
    subst this
    constructor
    · simp [RR.view, Function.comp_def, CName.bytes, List.take_take, RRsetArray.empty]
    · simp [RRset.view, Function.comp_def, RRsetArray.empty]
  · rw [if_neg h0]
    obtain ⟨a', e, g⟩ := insertAll_grouped h0 rrs [] ⟨[], []⟩ grouped_nil
      (fun r hr => ⟨(hv r hr).1, (hv r hr).2 h0⟩) (by simp; omega)
    rw [show (⟨[], []⟩ : RRsetArray) = .empty from rfl, h, ok.injEq] at e
    subst e
    exact ⟨g.views, g.order, g.rdatas, g.owner, g.ttl_le, g.ttl_mem⟩

theorem readAll_valid {mem : List UInt8} {len : Nat} : ∀ {secs : List (Nat × Nat)} {p all},
    (secs.map Prod.fst).Nodup → readAll mem len secs p = ok all →
    (∀ r ∈ all, ∃ o sz, parseMessageRr r.1 mem 0 len o = ok (r.2, sz)) ∧
    (∀ s ∈ secs, (all.filter (fun r => r.1 = s.1)).length ≤ s.2) := by
  intro secs
  induction secs with
  | nil => intro p all _ h; simp only [readAll, ok.injEq] at h; simp [← h]
  | cons s rest ih =>
    obtain ⟨sec, c⟩ := s
    intro p all hnd h
    simp only [List.map_cons, List.nodup_cons] at hnd
    simp only [readAll] at h
    obtain ⟨⟨rrs, p'⟩, h1, h⟩ := bind_eq_ok.mp h
    obtain ⟨more, h2, h⟩ := bind_eq_ok.mp h
    simp only [ok.injEq] at h
    subst h
    obtain ⟨h3, h4⟩ := readSec_valid h1
    obtain ⟨h5, h6⟩ := ih hnd.2 h2
    constructor
    · intro r hr
      rcases List.mem_append.mp hr with hr | hr
      · simp only [List.mem_map] at hr
        obtain ⟨r, hr', rfl⟩ := hr
        exact h4 r hr'
      · exact h5 r hr
    · intro s hs
      rw [List.filter_append, List.length_append]
      rcases List.mem_cons.mp hs with rfl | hs
      · have : more.filter (fun r => r.1 = sec) = [] := by
          rw [List.filter_eq_nil_iff]
          intro r hr
          have := readAll_tags h2 r hr
          have : r.1 ≠ sec := fun h => hnd.1 (h ▸ this)
          simp [this]
        simp only [this]
        have := List.length_filter_le (fun r : Nat × RR => r.1 = sec) (rrs.map (sec, ·))
        simp at this ⊢; omega
      · have : (rrs.map (sec, ·)).filter (fun r => r.1 = s.1) = [] := by
          rw [List.filter_eq_nil_iff]
          intro r hr
          simp only [List.mem_map] at hr
          obtain ⟨r, hr, rfl⟩ := hr
          have : sec ≠ s.1 := fun h => hnd.1 (h ▸ List.mem_map_of_mem hs)
          simp [this]
        rw [this]
        have := h6 s hs
        simp at this ⊢; omega

theorem sectionOf_sub (all : List (Nat × RR)) (i : Nat) :
    (∀ r ∈ sectionOf all i, (i, r) ∈ all) ∧ (sectionOf all i).length ≤ (all.filter (fun r => r.1 = i)).length := by
  constructor
  · intro r hr
    unfold sectionOf at hr
    simp only [List.mem_map, List.mem_filter] at hr
    obtain ⟨⟨j, r'⟩, ⟨h1, h2⟩, rfl⟩ := hr
    simp only [decide_eq_true_eq] at h2
    subst h2
    exact List.mem_of_mem_eraseP h1
  · unfold sectionOf
    rw [List.length_map]
    exact (List.Sublist.filter _ List.eraseP_sublist).length_le

/-- The sections and counts of the header. -/
def headerSecs (mem : List UInt8) : List (Nat × Nat) :=
  [(0, u16At mem 4), (1, u16At mem 6), (2, u16At mem 8), (3, u16At mem 10)]

theorem headerSecs_nodup (mem : List UInt8) : ((headerSecs mem).map Prod.fst).Nodup := by
  simp [headerSecs]

theorem sectionIs_headerSecs {mem : List UInt8} {len p : Nat} {all} (h : readAll mem len (headerSecs mem) p = ok all)
    {i : Nat} (hi : i < 4) {a : RRsetArray} (ha : insertAll i .empty (sectionOf all i) = ok a) :
    SectionIs i (sectionOf all i) a := by
  obtain ⟨h1, h2⟩ := readAll_valid (headerSecs_nodup mem) h
  refine sectionIs_of_insertAll ?_ ?_ ha
  · intro r hr
    obtain ⟨o, sz, he⟩ := h1 _ ((sectionOf_sub all i).1 r hr)
    exact (parseMessageRr_valid he).1
  · have hle := (sectionOf_sub all i).2
    have : ∃ s ∈ headerSecs mem, s.1 = i ∧ s.2 < 65536 := by
      unfold headerSecs
      rcases (show i = 0 ∨ i = 1 ∨ i = 2 ∨ i = 3 by omega) with rfl | rfl | rfl | rfl <;>
        simp [u16At_lt]
    obtain ⟨s, hs, rfl, h3⟩ := this
    have := h2 s hs
    omega

theorem find?_tagged (all : List (Nat × RR)) :
    (all.map Prod.snd).find? (fun r => r.rrtype = 41) = (all.find? isOpt).map Prod.snd := by
  rw [List.find?_map]; rfl

/-- `wdns_parse_message`: read all records, then assemble. -/
theorem parseMessage_eq {mem : List UInt8} {len : Nat} (hm : len ≤ mem.length) :
    (len < 12 ∧ parseMessage mem len = err .len) ∨
    12 ≤ len ∧ (
    (∃ all m, readAll mem len (headerSecs mem) 12 = ok all ∧
      parseMessage mem len = ok m ∧ MessageOf mem all m ∧
      (∀ s r, all.find? isOpt = some (s, r) → m.rcode = u16At mem 2 % 16 ||| (r.rrttl / 65536 / 256 % 256) * 256) ∧
      (∀ (i : Nat) a, m.sections[i]? = some a → insertAll i .empty (sectionOf all i) = ok a)) ∨
    (∃ r, readAll mem len (headerSecs mem) 12 = err r ∧
      parseMessage mem len = err r) ∨
    (readAll mem len (headerSecs mem) 12 = ub ∧
      parseMessage mem len = ub) ∨
    (readAll mem len (headerSecs mem) 12 = hang ∧
      parseMessage mem len = hang) ∨
    (readAll mem len (headerSecs mem) 12 = abort ∧
      parseMessage mem len = abort)) := by
  by_cases hl : len < 12
  · left; exact ⟨hl, by simp [parseMessage, hl]⟩
  · right
    refine ⟨by omega, ?_⟩
    have hg : ∀ i, i + 1 < 12 → be16 (((mem.drop 0).take 12).getD i 0) (((mem.drop 0).take 12).getD (i + 1) 0) = u16At mem i := by
      intro i hi
      rw [List.drop_zero]
      exact u16At_take hi
    have hpm : parseMessage mem len = (do
        let (hdr, secs) ← parseSections mem len
          [(0, u16At mem 4), (1, u16At mem 6), (2, u16At mem 8), (3, u16At mem 10)] 12
          ⟨.zero, u16At mem 2 % 16⟩ []
        ok ⟨u16At mem 0, u16At mem 2, hdr.rcode, hdr.edns, secs⟩) := by
      unfold parseMessage
      rw [if_neg hl, rdN_ok (by omega)]
      simp only [ok_bind]
      rw [hg 0 (by omega), hg 2 (by omega), hg 4 (by omega), hg 6 (by omega), hg 8 (by omega), hg 10 (by omega)]
    rw [hpm]
    rcases parseSections_eq (mem := mem) (len := len)
      (secs := [(0, u16At mem 4), (1, u16At mem 6), (2, u16At mem 8), (3, u16At mem 10)]) (p := 12)
      (hdr := ⟨.zero, u16At mem 2 % 16⟩) (done := []) (by simp)
      (by intro s hs; simp at hs; rcases hs with rfl | rfl | rfl | rfl <;> exact u16At_lt _ _) with
      ⟨all, arrs, b1, b2, b3⟩ | ⟨r, b1, b2⟩ | ⟨b1, b2⟩ | ⟨b1, b2⟩ | ⟨b1, b2⟩
    · left
      rw [b2]
      refine ⟨all, _, b1, rfl, ⟨rfl, rfl, ?_, ?_⟩, ?_, ?_⟩
      · simp only [hdrAfter, Edns.zero, Bool.false_eq_true, if_false, find?_tagged]
        cases all.find? isOpt with
        | none => simp
        | some r => simp [parseEdns]
      · obtain ⟨a0, as, rfl, e0, a1, as, rfl, e1, a2, as, rfl, e2, a3, as, rfl, e3, rfl⟩ := b3
        refine ⟨rfl, ?_⟩
        intro i a hi
        match i, hi with
        | 0, hi => simp at hi; subst hi; exact sectionIs_headerSecs b1 (by omega) e0
        | 1, hi => simp at hi; subst hi; exact sectionIs_headerSecs b1 (by omega) e1
        | 2, hi => simp at hi; subst hi; exact sectionIs_headerSecs b1 (by omega) e2
        | 3, hi => simp at hi; subst hi; exact sectionIs_headerSecs b1 (by omega) e3
        | n + 4, hi => simp at hi
      · intro s r hf
        have hf' := find?_tagged all
        rw [hf] at hf'
        simp only [hdrAfter, Edns.zero, hf', Option.map_some, parseEdns, Bool.false_eq_true, if_false]
      · obtain ⟨a0, as, rfl, e0, a1, as, rfl, e1, a2, as, rfl, e2, a3, as, rfl, e3, rfl⟩ := b3
        intro i a hi
        match i, hi with
        | 0, hi => simp at hi; subst hi; exact e0
        | 1, hi => simp at hi; subst hi; exact e1
        | 2, hi => simp at hi; subst hi; exact e2
        | 3, hi => simp at hi; subst hi; exact e3
        | n + 4, hi => simp at hi
    · right; left; exact ⟨r, b1, by rw [b2]; rfl⟩
    · right; right; left; exact ⟨b1, by rw [b2]; rfl⟩
    · right; right; right; left; exact ⟨b1, by rw [b2]; rfl⟩
    · right; right; right; right; exact ⟨b1, by rw [b2]; rfl⟩

theorem msgRecs_of_readAll {msg : List UInt8} (h64 : msg.length < 2 ^ 64) (hno : SvcNoLong msg) (h12 : 12 ≤ msg.length)
    {all} (h : readAll msg msg.length (headerSecs msg) 12 = ok all) :
    MsgRecs msg all := by
  simp only [readAll, headerSecs] at h
  obtain ⟨⟨r0, p1⟩, h0, h⟩ := bind_eq_ok.mp h
  obtain ⟨m0, h, hm0⟩ := bind_eq_ok.mp h
  obtain ⟨⟨r1, p2⟩, h1, h⟩ := bind_eq_ok.mp h
  obtain ⟨m1, h, hm1⟩ := bind_eq_ok.mp h
  obtain ⟨⟨r2, p3⟩, h2, h⟩ := bind_eq_ok.mp h
  obtain ⟨m2, h, hm2⟩ := bind_eq_ok.mp h
  obtain ⟨⟨r3, p4⟩, h3, h⟩ := bind_eq_ok.mp h
  simp only [ok_bind, ok.injEq] at hm0 hm1 hm2 h
  have c0 := cleanFrom_of_svcNoLong hno
  have hnext : ∀ {sec n secs o rrs o'}, CleanFrom msg ((sec, n) :: secs) o → readSec sec msg msg.length n o = ok (rrs, o') → CleanFrom msg secs o' := by
    intro sec n secs o rrs o' hc h
    have := cleanFrom_next (mem := msg) (len := msg.length) (Nat.le_refl _) h64 (by rw [List.take_length]; exact hc) h
    rwa [List.take_length] at this
  have c1 := hnext c0 h0
  have c2 := hnext c1 h1
  have c3 := hnext c2 h2
  obtain ⟨e0, b0⟩ := recs_of_readSec h64 h12 c0.1 h0
  obtain ⟨e1, b1⟩ := recs_of_readSec h64 b0 c1.1 h1
  obtain ⟨e2, b2⟩ := recs_of_readSec h64 b1 c2.1 h2
  obtain ⟨e3, b3⟩ := recs_of_readSec h64 b2 c3.1 h3
  have := MsgRecs.mk e0 e1 e2 e3
  rw [← hm0, ← hm1, ← hm2, ← h]
  simpa [List.append_assoc] using this

theorem readAll_of_msgRecs {mem : List UInt8} {len : Nat} (hm : len ≤ mem.length) (h64 : len < 2 ^ 64) (h12 : 12 ≤ len)
    {all} (h : MsgRecs (mem.take len) all) :
    readAll mem len (headerSecs mem) 12 = ok all := by
  cases h with
  | mk h0 h1 h2 h3 =>
    rw [u16At_take (by omega)] at h0 h1 h2 h3
    simp only [readAll, headerSecs, readSec_of_recs hm h64 h0, readSec_of_recs hm h64 h1, readSec_of_recs hm h64 h2,
      readSec_of_recs hm h64 h3, ok_bind, List.append_nil, List.append_assoc]

end Wdns
