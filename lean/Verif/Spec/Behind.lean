import Verif.Spec.Message

/-!
# Specification: a packet and the octet behind it

The decoder of names may read the octet just behind the packet (property C04, C35).  `buf` holds the packet, which has `len` octets, and
possibly this one octet; the definitions say which packets then make sense.  The only differences from Spec/Message.lean: names are read from `buf`, and
an rdata that ends with the packet may end in a name whose last octet is the one behind the packet.
-/

namespace Wdns.Spec

/-- The octets from `o` to the end of the packet and the one octet behind it are fields of the types `ts`, the last of them a name; `x` is their
uncompressed form. -/
inductive Borrows (buf : List UInt8) (len : Nat) : List Rdf → Nat → List UInt8 → Prop
  | here {t ts o n} : o < len → IsName t → Denotes buf 0 o n → WF n → EncEnd buf o (len + 1) → Borrows buf len (t :: ts) o (wire n)
  | name {t ts o o' n rest} : IsName t → Denotes buf 0 o n → WF n → EncEnd buf o o' → o' ≤ len → Borrows buf len ts o' rest →
      Borrows buf len (t :: ts) o (wire n ++ rest)
  | field {t ts o o' rest} : o ≤ o' → o' ≤ len → FieldOK t ((buf.drop o).take (o' - o)) → ¬ Terminal t → Borrows buf len ts o' rest →
      Borrows buf len (t :: ts) o ((buf.drop o).take (o' - o) ++ rest)

/-- The `rdlen` octets at `o` are an rdata of the given type and class whose uncompressed form is `x`; if they end with the packet, the octet behind it may
complete them. -/
def RdataIn (buf : List UInt8) (len o rdlen ty cls : Nat) (x : List UInt8) : Prop :=
  (∃ d, recordDescr ty = some d ∧ d.applies cls = true ∧
    (Layout buf 0 (o + rdlen) d.types o x ∨ o + rdlen = len ∧ Borrows buf len d.types o x)) ∨
  ((∀ d, recordDescr ty = some d → d.applies cls = false) ∧ x = (buf.drop o).take rdlen)

/-- The octets of the packet from `o` to `o'` are the resource record `rr` (compare `RRAt`). -/
inductive RRIn (buf : List UInt8) (len : Nat) : (sec o o' : Nat) → RR → Prop
  | question {o e n} : Denotes buf 0 o n → WF n → EncEnd buf o e → e + 4 ≤ len →
      RRIn buf len 0 o (e + 4) ⟨0, u16At buf e, u16At buf (e + 2), ⟨(wire n).length, wire n⟩, none⟩
  | record {sec o e n x} : sec ≠ 0 → Denotes buf 0 o n → WF n → EncEnd buf o e → e + 10 + u16At buf (e + 8) ≤ len →
      RdataIn buf len (e + 10) (u16At buf (e + 8)) (u16At buf e) (u16At buf (e + 2)) x →
      RRIn buf len sec o (e + 10 + u16At buf (e + 8))
        ⟨u32At buf (e + 4), u16At buf e, u16At buf (e + 2), ⟨(wire n).length, wire n⟩, some ⟨x.length % 65536, x⟩⟩

/-- The records of one section (compare `Recs`). -/
inductive RecsIn (buf : List UInt8) (len sec : Nat) : Nat → Nat → List RR → Nat → Prop
  | zero {o} : RecsIn buf len sec 0 o [] o
  | stop {n} : RecsIn buf len sec (n + 1) len [] len
  | cons {n o o₁ o' rr rrs} : o < len → RRIn buf len sec o o₁ rr → RecsIn buf len sec n o₁ rrs o' → RecsIn buf len sec (n + 1) o (rr :: rrs) o'

/-- The records of the whole packet (compare `MsgRecs`). -/
inductive MsgRecsIn (buf : List UInt8) (len : Nat) : List (Nat × RR) → Prop
  | mk {r0 r1 r2 r3 p1 p2 p3 p4} :
      RecsIn buf len 0 (u16At buf 4) 12 r0 p1 → RecsIn buf len 1 (u16At buf 6) p1 r1 p2 →
      RecsIn buf len 2 (u16At buf 8) p2 r2 p3 → RecsIn buf len 3 (u16At buf 10) p3 r3 p4 →
      MsgRecsIn buf len (r0.map (0, ·) ++ r1.map (1, ·) ++ r2.map (2, ·) ++ r3.map (3, ·))

end Wdns.Spec
