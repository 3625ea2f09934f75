import Verif.Spec.Rdata
import Verif.Spec.RRset
import Verif.Model.Parse

/-!
# Specification: the records of a DNS message (RFC 1035 4.1)
-/

namespace Wdns.Spec

/-- The 16-bit big-endian number at offset `o`. -/
def u16At (msg : List UInt8) (o : Nat) : Nat := be16 (msg.getD o 0) (msg.getD (o + 1) 0)

/-- The 32-bit big-endian number at offset `o`. -/
def u32At (msg : List UInt8) (o : Nat) : Nat :=
  be32 (msg.getD o 0) (msg.getD (o + 1) 0) (msg.getD (o + 2) 0) (msg.getD (o + 3) 0)

/-- `Walk msg q n o o'`: the message has `n` records (questions if `q`) from `o` to `o'`, judging by the ends of their owner names and their rdata lengths
alone. -/
inductive Walk (msg : List UInt8) (q : Bool) : Nat → Nat → Nat → Prop
  | zero {o} : Walk msg q 0 o o
  | succ {n o e o'} : EncEnd msg o e → Walk msg q n (if q then e + 4 else e + 10 + u16At msg (e + 8)) o' → Walk msg q (n + 1) o o'

/-- The record at `o` is not an SVCB or HTTPS record (type 64 or 65, class IN) with a SvcParam whose length field is 65532 or more (see `LongParam`). -/
def RecNoLong (msg : List UInt8) (o : Nat) : Prop :=
  ∀ e, EncEnd msg o e → u16At msg e = 64 ∨ u16At msg e = 65 → u16At msg (e + 2) = 1 → ¬ LongSvc msg (e + 10) (u16At msg (e + 8))

/-- No record of the message is such a record. -/
def SvcNoLong (msg : List UInt8) : Prop :=
  ∀ p n o, Walk msg true (u16At msg 4) 12 p → n < u16At msg 6 + u16At msg 8 + u16At msg 10 → Walk msg false n p o → RecNoLong msg o

/-- The `rdlen` octets at `o` are an rdata of the given type and class whose uncompressed form is `x`. -/
def RdataAt (msg : List UInt8) (o rdlen ty cls : Nat) (x : List UInt8) : Prop :=
  (∃ d, recordDescr ty = some d ∧ d.applies cls = true ∧ Layout msg 0 (o + rdlen) d.types o x) ∨
  ((∀ d, recordDescr ty = some d → d.applies cls = false) ∧ x = (msg.drop o).take rdlen)

/-- The octets of `msg` from `o` to `o'` are the resource record `rr` (in the question section, `sec = 0`,
a question).  An rdata object has a 16-bit length field. -/
inductive RRAt (msg : List UInt8) : (sec o o' : Nat) → RR → Prop
  | question {o e n} : Denotes msg 0 o n → WF n → EncEnd msg o e → e + 4 ≤ msg.length →
      RRAt msg 0 o (e + 4)
        ⟨0, u16At msg e, u16At msg (e + 2), ⟨(wire n).length, wire n⟩, none⟩
  | record {sec o e n x} : sec ≠ 0 → Denotes msg 0 o n → WF n → EncEnd msg o e →
      e + 10 + u16At msg (e + 8) ≤ msg.length →
      RdataAt msg (e + 10) (u16At msg (e + 8)) (u16At msg e) (u16At msg (e + 2)) x →
      RRAt msg sec o (e + 10 + u16At msg (e + 8))
        ⟨u32At msg (e + 4), u16At msg e, u16At msg (e + 2), ⟨(wire n).length, wire n⟩,
          some ⟨x.length % 65536, x⟩⟩

/-- `Recs msg sec n o rrs o'`: from `o` to `o'` there are the records `rrs` of one section whose header
count is `n`; there may be fewer than `n` if the message ends. -/
inductive Recs (msg : List UInt8) (sec : Nat) : Nat → Nat → List RR → Nat → Prop
  | zero {o} : Recs msg sec 0 o [] o
  | stop {n} : Recs msg sec (n + 1) msg.length [] msg.length
  | cons {n o o₁ o' rr rrs} : o < msg.length → RRAt msg sec o o₁ rr → Recs msg sec n o₁ rrs o' →
      Recs msg sec (n + 1) o (rr :: rrs) o'

/-- The records of a whole message, tagged with their section (0..3), in order. -/
inductive MsgRecs (msg : List UInt8) : List (Nat × RR) → Prop
  | mk {r0 r1 r2 r3 p1 p2 p3 p4} :
      Recs msg 0 (u16At msg 4) 12 r0 p1 → Recs msg 1 (u16At msg 6) p1 r1 p2 →
      Recs msg 2 (u16At msg 8) p2 r2 p3 → Recs msg 3 (u16At msg 10) p3 r3 p4 →
      MsgRecs msg (r0.map (0, ·) ++ r1.map (1, ·) ++ r2.map (2, ·) ++ r3.map (3, ·))

/-- An OPT record. -/
def isOpt (r : Nat × RR) : Bool := r.2.rrtype = 41

/-- The records of section `i`, without the first OPT record of the message. -/
def sectionOf (all : List (Nat × RR)) (i : Nat) : List RR :=
  ((all.eraseP isOpt).filter (fun r => r.1 = i)).map Prod.snd

/-- A section other than the question section holds the records `rrs`: all of them in order as RRs, and
grouped into RRsets by type, class and owner name (ignoring case), in the order of first appearance, each with the
rdatas in order, the first owner name and the least TTL. -/
structure GroupedAs (rrs : List RR) (a : RRsetArray) : Prop where
  rrs_eq : a.rrs.map RR.view = rrs.map RR.view
  keys : a.rrsets.map RRset.key = (rrs.map RR.key).eraseDups
  rdatas : ∀ s ∈ a.rrsets, s.rdatas = (rrs.filter fun r => r.key = s.key).filterMap RR.rdata
  owner : ∀ s ∈ a.rrsets, ((rrs.filter fun r => r.key = s.key).head?).map RR.name = some s.name
  ttl_le : ∀ s ∈ a.rrsets, ∀ r ∈ rrs, r.key = s.key → s.rrttl ≤ r.rrttl
  ttl_mem : ∀ s ∈ a.rrsets, ∃ r ∈ rrs, r.key = s.key ∧ s.rrttl = r.rrttl

/-- The question section holds one RR and one RRset without rdata per question, in order. -/
structure QuestionsAs (rrs : List RR) (a : RRsetArray) : Prop where
  rrs_eq : a.rrs.map RR.view = rrs.map (fun r => (r.rrttl, r.rrtype, r.rrclass, r.name.bytes, none))
  rrsets_eq : a.rrsets.map RRset.view = rrs.map (fun r => (r.rrttl, r.rrtype, r.rrclass, r.name.bytes, []))

/-- Section `i` holds the records `rrs`. -/
def SectionIs (i : Nat) (rrs : List RR) (a : RRsetArray) : Prop :=
  if i = 0 then QuestionsAs rrs a else GroupedAs rrs a

/-- The message object made of the header of `msg` and the records `all` (rcode apart). -/
def MessageOf (msg : List UInt8) (all : List (Nat × RR)) (m : Message) : Prop :=
  m.id = u16At msg 0 ∧ m.flags = u16At msg 2 ∧
  (match all.find? isOpt with
    | none => m.edns = ⟨false, 0, 0, 0, none⟩ ∧ m.rcode = u16At msg 2 % 16
    | some (_, r) => m.edns = ⟨true, r.rrttl / 65536 % 256, r.rrttl % 65536, r.rrclass, r.rdata⟩) ∧
  m.sections.length = 4 ∧ ∀ i a, m.sections[i]? = some a → SectionIs i (sectionOf all i) a

end Wdns.Spec
