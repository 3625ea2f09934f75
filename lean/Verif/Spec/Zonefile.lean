import Verif.Model.Zonefile

/-!
# Specification: the zone file reader
-/

namespace Wdns.Spec

/-- An empty line or a directive. -/
def NoRecord : ZItem → Prop
  | .blank | .ttl | .origin => True
  | _ => False

instance : DecidablePred NoRecord := fun t => by cases t <;> unfold NoRecord <;> infer_instance

/-- A line that may follow the SOA record: no error and no second SOA record. -/
def BodyItem : ZItem → Prop
  | .rr r => r.soa = false
  | .bad => False
  | _ => True

instance : DecidablePred BodyItem := fun t => by cases t <;> unfold BodyItem <;> infer_instance

/-- The records of a file. -/
def zoneRecs (items : List ZItem) : List ZRec := items.filterMap fun i => match i with | .rr r => some r | _ => none

/-- The record of a result. -/
def outRec : ZOut → Option ZRec
  | .record r _ => some r
  | _ => none

/-- The block of a result: it belongs to the caller. -/
def outBlock : ZOut → List Nat
  | .record _ b => [b]
  | _ => []

/-- The blocks of the object. -/
def ZFile.blocks (z : ZFile) : List Nat :=
  [z.self, z.fp] ++ z.domain.toList ++ z.origin.toList ++ z.prev.toList ++ (z.soa.map (·.2)).toList

/-- Exactly these blocks are live. -/
def LiveAre (h : Heap) (X : List Nat) : Prop := h.live.Nodup ∧ (∀ b ∈ h.live, b < h.next) ∧ h.live.Perm X

end Wdns.Spec
