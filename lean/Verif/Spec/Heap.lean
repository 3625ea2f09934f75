import Verif.Model.Heap

/-!
# Specification vocabulary for block ownership
-/

namespace Wdns

/-- A possible state of the allocator: no block is live twice, and blocks not handed out yet are not live. -/
def Heap.Wf (h : Heap) : Prop := h.live.Nodup ∧ ∀ b ∈ h.live, b < h.next

/-- The blocks reachable from an RR. -/
def HRR.blocks (r : HRR) : List Nat := r.name.toList ++ r.rdata.toList
/-- The blocks reachable from an RRset. -/
def HRRset.blocks (s : HRRset) : List Nat := s.name.toList ++ s.rdatas.toList ++ s.items.flatMap Option.toList
/-- The blocks reachable from an RRset array. -/
def HArr.blocks (a : HArr) : List Nat :=
  a.rrsBlk.toList ++ a.rrsetsBlk.toList ++ a.rrs.flatMap HRR.blocks ++ a.rrsets.flatMap HRRset.blocks
/-- The blocks reachable from a message. -/
def HMsg.blocks (m : HMsg) : List Nat := m.options.toList ++ m.sections.flatMap HArr.blocks

/-- The message without the pointers: what `parseMessage` returns. -/
def HMsg.erase (m : HMsg) : Message :=
  ⟨m.id, m.flags, m.hdr.rcode, m.hdr.edns,
    m.sections.map fun a => ⟨a.rrs.map HRR.val, a.rrsets.map HRRset.val⟩⟩

end Wdns
