import Verif.Spec.Rdata

/-!
# Specification: what lower-casing does to any rdata, well-formed or not
-/

namespace Wdns.Spec

/-- The octets that a field that is neither a name nor open-ended takes at the start of `w`: a fixed number, or as many as the first octet announces.
(For an IPv6 prefix the announced number is the number of prefix bits, which is not the size of the field.) -/
def taken (t : Rdf) (w : List UInt8) : Nat :=
  match t with
  | .int8 => 1
  | .int16 | .rrtype => 2
  | .int32 | .ipv4 => 4
  | .ipv6 => 16
  | .eui48 => 6
  | _ => (w.headD 0).toNat + 1

/-- Lower-casing the names of the octets `w`, read as fields of the types `ts`, ends with this result code and these octets.  A name reaches to
the first zero octet, whatever its length octets say. -/
inductive Downs : List Rdf → List UInt8 → Res → List UInt8 → Prop
  | used {ts} : Downs ts [] .success []
  | left {w} : w ≠ [] → Downs [] w .parseError w
  | name {t ts a s res s'} : IsName t → 0 ∉ a → Downs ts s res s' → Downs (t :: ts) (a ++ 0 :: s) res (a.map lower ++ 0 :: s')
  | endless {t ts a} : IsName t → a ≠ [] → 0 ∉ a → (∀ t' ∈ ts, t' = .int32) → Downs (t :: ts) a .parseError (a.map lower)
  | endlessOpen {t t' ts a} : IsName t → a ≠ [] → 0 ∉ a → Terminal t' → Downs (t :: t' :: ts) a .success (a.map lower)
  | openEnded {t ts w} : Terminal t → w ≠ [] → Downs (t :: ts) w .success w
  | field {t ts f s res s'} : ¬ IsName t → ¬ Terminal t → (t = .ipv6prefix → ((f ++ s).headD 0).toNat ≤ 16) → f.length = taken t (f ++ s) →
      Downs ts s res s' → Downs (t :: ts) (f ++ s) res (f ++ s')
  | short {t ts w} : ¬ IsName t → ¬ Terminal t → w ≠ [] → (w.length < taken t w ∨ (t = .ipv6prefix ∧ 16 < (w.headD 0).toNat)) →
      Downs (t :: ts) w .parseError w

end Wdns.Spec
