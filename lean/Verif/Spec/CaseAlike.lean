import Verif.Spec.Downcase
import Verif.Spec.RRset
import Batteries.Data.List.Basic

/-!
# Specification: records that differ in the case of letters only

A server may answer with another spelling of the same names: `WWW.Example.com` for `www.example.com`, in the owner names and inside the rdata.
-/

namespace Wdns.Spec

/-- Rdata of this type and class, with exactly its names lower-cased (RFC 4034 6.2: only certain types have names that are lower-cased; no label has a zero octet, see C59). -/
def LoweredRdata (ty cls : Nat) (w x : List UInt8) : Prop :=
  ∃ d, ty ∈ canonicalTypes ∧ ty ≠ 38 ∧ recordDescr ty = some d ∧ d.applies cls = true ∧ Lowered NoZero d.types w x

/-- The same rdata, or rdatas that differ in the case of letters of the names in them only. -/
def RdataAlike (ty cls : Nat) (w w' : List UInt8) : Prop := w = w' ∨ ∃ x, LoweredRdata ty cls w x ∧ LoweredRdata ty cls w' x

/-- What can be observed of two records that are the same up to the case of letters in names. -/
def RRAlike (v v' : Nat × Nat × Nat × List UInt8 × Option (List UInt8)) : Prop :=
  v'.1 = v.1 ∧ v'.2.1 = v.2.1 ∧ v'.2.2.1 = v.2.2.1 ∧ v'.2.2.2.1.map lower = v.2.2.2.1.map lower ∧
  match v.2.2.2.2, v'.2.2.2.2 with
  | none, none => True
  | some w, some w' => RdataAlike v.2.1 v.2.2.1 w w'
  | _, _ => False

/-- Two lists of records: the same ones up to their order and the case of letters. -/
def Alike (xs ys : List RR) : Prop := ∃ q, List.Forall₂ RRAlike (xs.map RR.view) q ∧ q.Perm (ys.map RR.view)

end Wdns.Spec
