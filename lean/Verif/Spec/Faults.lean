import Verif.Spec.Wrapped
import Verif.Spec.UnpackFaults

/-!
# Specification: what is wrong with a packet that is rejected

`mem` is the readable memory from the start of the packet on, `len` the length of the packet; one octet behind the packet is looked at when a name ends there (C02).
Everything is read from the left to the right, and the first fault decides.
-/

namespace Wdns.Spec

/-- The octet at `i`, as a number. -/
def octetAt (mem : List UInt8) (i : Nat) : Nat := (mem.getD i 0).toNat

/-- The size of a field of fixed size. -/
def fixedSize : Rdf → Option Nat
  | .int8 => some 1
  | .int16 | .rrtype => some 2
  | .int32 | .ipv4 => some 4
  | .eui48 => some 6
  | .eui64 => some 8
  | .ipv6 => some 16
  | _ => none

/-- Character strings from `i` on, inside of what ends at `e`, lead to `j`. -/
inductive StringRun (mem : List UInt8) (e : Nat) : Nat → Nat → Prop
  | here {i} : StringRun mem e i i
  | step {i j} : i < e → i + 1 + octetAt mem i ≤ e → StringRun mem e (i + 1 + octetAt mem i) j → StringRun mem e i j

/-- Windows of a type bitmap from `i` on, inside of what ends at `e`, lead to `j`: a window number, a length from 1 to 32, and as many octets. -/
inductive WindowRun (mem : List UInt8) (e : Nat) : Nat → Nat → Prop
  | here {i} : WindowRun mem e i i
  | step {i j} : 1 ≤ octetAt mem (i + 1) → octetAt mem (i + 1) ≤ 32 → i + 2 + octetAt mem (i + 1) ≤ e → WindowRun mem e (i + 2 + octetAt mem (i + 1)) j →
      WindowRun mem e i j

/-- What is wrong with a field other than a name, at `o` in an rdata that ends at `e`, and the code for it. -/
inductive FieldFault (mem : List UInt8) (e : Nat) : Rdf → Nat → Res → Prop
  /-- Too few octets are left. -/
  | fixed {t k o} : fixedSize t = some k → e < o + k → FieldFault mem e t o .parseError
  /-- The string is longer than what is left. -/
  | string {t o} : t = .string ∨ t = .salt ∨ t = .hash → e < o + 1 + octetAt mem o → FieldFault mem e t o .parseError
  | strings {o j} : StringRun mem e o j → j < e → e < j + 1 + octetAt mem j → FieldFault mem e .repstring o .parseError
  /-- A prefix length over 128; too few octets for the rest of the address. -/
  | prefixLength {o} : 128 < octetAt mem o → FieldFault mem e .ipv6prefix o .outOfBounds
  | prefixRest {o} : octetAt mem o ≤ 128 → e < o + 1 + (128 - octetAt mem o + 7) / 8 → FieldFault mem e .ipv6prefix o .parseError
  /-- A window without length, with a wrong length, or cut off. -/
  | window {o j} : WindowRun mem e o j → j < e → (j + 1 = e ∨ octetAt mem (j + 1) = 0 ∨ 32 < octetAt mem (j + 1) ∨ e < j + 2 + octetAt mem (j + 1)) →
      FieldFault mem e .typeBitmap o .outOfBounds
  /-- A SvcParam without key and length; one that is longer than what is left; one whose value does not suit its key. -/
  | paramHead {o j} : SvcRun mem e o j → j < e → e < j + 4 → FieldFault mem e .svcparams o .parseError
  | paramSize {o j} : SvcRun mem e o j → j + 4 ≤ e → e < j + paramSize mem j → FieldFault mem e .svcparams o .outOfBounds
  | paramValue {o j} : SvcRun mem e o j → j + 4 ≤ e → j + Spec.paramSize mem j ≤ e → ¬ ValueIn mem (u16At mem j) (u16At mem (j + 2)) (j + 4) →
      ¬ (u16At mem j = 1 ∧ RunsOff mem (j + 4 + u16At mem (j + 2)) (j + 4)) → FieldFault mem e .svcparams o .parseError

/-- What is wrong with fields of the types `ts` that should fill the octets from `o` to `e`. -/
inductive FieldsFault (mem : List UInt8) (len e : Nat) : List Rdf → Nat → Res → Prop
  /-- Octets are left over. -/
  | extra {o} : o < e → FieldsFault mem len e [] o .outOfBounds
  /-- A wrong name; a name that goes on behind the rdata. -/
  | name {t ts o c} : o < e → IsName t → NameFault (mem.take (len + 1)) 0 o c → FieldsFault mem len e (t :: ts) o c
  | nameEnd {t ts o o' n} : o < e → IsName t → Denotes (mem.take (len + 1)) 0 o n → WF n → EncEnd (mem.take (len + 1)) o o' → e < o' → e < len →
      FieldsFault mem len e (t :: ts) o .outOfBounds
  /-- A wrong field of another kind. -/
  | field {t ts o c} : o < e → FieldFault mem e t o c → FieldsFault mem len e (t :: ts) o c
  /-- Something behind a field that is right. -/
  | afterName {t ts o o' n c} : o < e → IsName t → Denotes (mem.take (len + 1)) 0 o n → WF n → EncEnd (mem.take (len + 1)) o o' → o' ≤ e →
      FieldsFault mem len e ts o' c → FieldsFault mem len e (t :: ts) o c
  | afterField {t ts o o' c} : o < e → o ≤ o' → o' ≤ e → FieldOK t ((mem.drop o).take (o' - o)) → ¬ Terminal t → FieldsFault mem len e ts o' c →
      FieldsFault mem len e (t :: ts) o c

/-- What is wrong with an rdata: only the rdata of known types is looked at. -/
def RdataFault (mem : List UInt8) (len : Nat) (c : Res) (o rdlen ty cls : Nat) : Prop :=
  ∃ d, recordDescr ty = some d ∧ d.applies cls = true ∧ FieldsFault mem len (o + rdlen) d.types o c

/-- What is wrong with the record at `o`, in section `sec` (0 is the question section, whose records have neither TTL nor rdata). -/
inductive RecordFault (mem : List UInt8) (len sec o : Nat) : Res → Prop
  /-- The owner name. -/
  | owner {c} : NameFault (mem.take (len + 1)) 0 o c → RecordFault mem len sec o c
  /-- The packet ends inside of the fixed part behind the name. -/
  | head {n e} : Denotes (mem.take (len + 1)) 0 o n → WF n → EncEnd (mem.take (len + 1)) o e → len < e + 4 ∨ (sec ≠ 0 ∧ len < e + 10) → RecordFault mem len sec o .parseError
  /-- The packet ends inside of the rdata. -/
  | rdata {n e} : sec ≠ 0 → Denotes (mem.take (len + 1)) 0 o n → WF n → EncEnd (mem.take (len + 1)) o e → e + 10 ≤ len → len < e + 10 + u16At mem (e + 8) →
      RecordFault mem len sec o .overflow
  /-- The rdata is not in order. -/
  | inside {c} : sec ≠ 0 → WithRdata mem len o (RdataFault mem len c) → RecordFault mem len sec o c

end Wdns.Spec
