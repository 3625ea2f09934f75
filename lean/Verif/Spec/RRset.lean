import Verif.Model.RRset

/-!
# Specification vocabulary for RRs and RRsets
-/

namespace Wdns
open Outcome

/-- The octets of a name object. -/
def CName.bytes (n : CName) : List UInt8 := n.data.take n.len
/-- The octets of an rdata object. -/
def CRdata.bytes (r : CRdata) : List UInt8 := r.data.take r.len

/-- The pointer of the name object refers to at least `len` bytes. -/
def CName.Valid (n : CName) : Prop := n.len ≤ n.data.length
/-- The rdata block holds at least `len` bytes. -/
def CRdata.Valid (r : CRdata) : Prop := r.len ≤ r.data.length

/-- What makes RRs belong to the same RRset: type, class, and owner name ignoring ASCII case. -/
def RR.key (rr : RR) : Nat × Nat × List UInt8 := (rr.rrtype, rr.rrclass, rr.name.bytes.map lower)
/-- Type, class, and owner name ignoring ASCII case of an RRset. -/
def RRset.key (s : RRset) : Nat × Nat × List UInt8 := (s.rrtype, s.rrclass, s.name.bytes.map lower)

/-- A resource record as the parser delivers it outside the question section: owner name and rdata
blocks are at least as long as their length fields say. -/
def RR.Valid (rr : RR) : Prop := rr.name.Valid ∧ ∃ d, rr.rdata = some d ∧ d.Valid
/-- All blocks of an RRset are at least as long as their length fields say. -/
def RRset.Valid (s : RRset) : Prop := s.name.Valid ∧ ∀ d ∈ s.rdatas, d.Valid

/-- All fields are in the range of their C types (uint32_t, uint16_t, uint8_t). -/
def RRset.Fits (s : RRset) : Prop :=
  s.rrttl < 2 ^ 32 ∧ s.rrtype < 2 ^ 16 ∧ s.rrclass < 2 ^ 16 ∧ s.name.len < 2 ^ 8 ∧
  s.rdatas.length < 2 ^ 16 ∧ ∀ d ∈ s.rdatas, d.len < 2 ^ 16

/-- Everything observable of an RR through the API. -/
def RR.view (rr : RR) : Nat × Nat × Nat × List UInt8 × Option (List UInt8) :=
  (rr.rrttl, rr.rrtype, rr.rrclass, rr.name.bytes, rr.rdata.map CRdata.bytes)

/-- Everything observable of an RRset through the API. -/
def RRset.view (s : RRset) : Nat × Nat × Nat × List UInt8 × List (List UInt8) :=
  (s.rrttl, s.rrtype, s.rrclass, s.name.bytes, s.rdatas.map CRdata.bytes)

/-- The order in which sorted rdatas stand: shorter first, equal lengths by the first differing octet
(unsigned). -/
def RdataLe (a b : List UInt8) : Prop :=
  a.length < b.length ∨ (a.length = b.length ∧ (a = b ∨
    ∃ (p : List UInt8) (x y : UInt8) (s t : List UInt8),
      a = p ++ x :: s ∧ b = p ++ y :: t ∧ x.toNat < y.toNat))

end Wdns
