import Verif.Spec.Behind

/-!
# Specification: what the parser makes of any packet in any memory

`mem` is all the readable memory from the start of the packet on, `len` the length of the packet.  Compared with Spec/Behind.lean the only
addition is the rdata of SVCB and HTTPS records: the size of a SvcParam counts modulo 65536, so a parameter with a length field of 65532, 65533, 65534 or 65535
takes 0, 1, 2 or 3 octets.  Its value is then judged by its key, its length field and, for `alpn`, by whatever lies in memory.
-/

namespace Wdns.Spec

/-- Length octets, read from `mem` at `i`, each of them passing over as many octets, lead exactly to `e`. -/
inductive Fills (mem : List UInt8) (e : Nat) : Nat → Prop
  | done : Fills mem e e
  | more {i} {l : UInt8} : i < e → mem[i]? = some l → Fills mem e (i + 1 + l.toNat) → Fills mem e i

/-- Length octets, read from `mem` at `i`, lead to a place in front of `e` that is not readable. -/
inductive RunsOff (mem : List UInt8) (e : Nat) : Nat → Prop
  | off {i} : i < e → mem.length ≤ i → RunsOff mem e i
  | more {i} {l : UInt8} : i < e → mem[i]? = some l → RunsOff mem e (i + 1 + l.toNat) → RunsOff mem e i

/-- The `n` octets at `i` are a value for the key (compare `SvcValueOK`; they need not be inside the packet). -/
def ValueIn (mem : List UInt8) (key n i : Nat) : Prop := SvcLenOK key n ∧ (key = 1 → n ≠ 0 ∧ Fills mem (i + n) i)

/-- The octets that the SvcParam at `i` takes: key, length field and value, modulo 65536. -/
def paramSize (mem : List UInt8) (i : Nat) : Nat := (4 + u16At mem (i + 2)) % 65536

/-- The SvcParams from `i` on, in an rdata that ends at `e`, lead to `j`. -/
inductive SvcRun (mem : List UInt8) (e : Nat) : Nat → Nat → Prop
  | here {i} : SvcRun mem e i i
  | step {i j} : i + 4 ≤ e → i + paramSize mem i ≤ e → ValueIn mem (u16At mem i) (u16At mem (i + 2)) (i + 4) →
      SvcRun mem e (i + paramSize mem i) j → SvcRun mem e i j

/-- The `rdlen` octets at `o` begin as the rdata of an SVCB or HTTPS record with the target name `n`, and the SvcParams lead to `j`; `i` is where they begin. -/
def SvcTo (mem : List UInt8) (len o rdlen ty cls : Nat) (n : Name) (i j : Nat) : Prop :=
  (ty = 64 ∨ ty = 65) ∧ cls = 1 ∧ 2 < rdlen ∧ Denotes (mem.take (len + 1)) 0 (o + 2) n ∧ WF n ∧ EncEnd (mem.take (len + 1)) (o + 2) i ∧ i ≤ o + rdlen ∧
  SvcRun mem (o + rdlen) i j

/-- The rdata at `o` is accepted, its stored form is `x`. -/
def RdataMem (mem : List UInt8) (len o rdlen ty cls : Nat) (x : List UInt8) : Prop :=
  RdataIn (mem.take (len + 1)) len o rdlen ty cls x ∨
  ∃ n i, SvcTo mem len o rdlen ty cls n i (o + rdlen) ∧ x = (mem.drop o).take 2 ++ wire n ++ (mem.drop i).take (o + rdlen - i)

/-- Reading the rdata at `o` does not end: its SvcParams lead to one that takes 0 octets and has a value for its key. -/
def RdataStalls (mem : List UInt8) (len o rdlen ty cls : Nat) : Prop :=
  ∃ n i j, SvcTo mem len o rdlen ty cls n i j ∧ j + 4 ≤ o + rdlen ∧ u16At mem (j + 2) = 65532 ∧ ValueIn mem (u16At mem j) 65532 (j + 4)

/-- Reading the rdata at `o` leads out of the readable memory: its SvcParams lead to an `alpn` whose strings are not all readable. -/
def RdataRunsOff (mem : List UInt8) (len o rdlen ty cls : Nat) : Prop :=
  ∃ n i j, SvcTo mem len o rdlen ty cls n i j ∧ j + 4 ≤ o + rdlen ∧ j + paramSize mem j ≤ o + rdlen ∧ u16At mem j = 1 ∧
    RunsOff mem (j + 4 + u16At mem (j + 2)) (j + 4)

/-- Reading a name at `o`, of which `k` octets have been read, leads to the end of the message: a label or the first octet of a compression pointer is the last thing
in it. -/
inductive ReachesEnd (msg : List UInt8) (base : Nat) : Nat → Nat → Prop
  | stop {k} : ReachesEnd msg base msg.length k
  | half {o k} {hi : UInt8} : msg[o]? = some hi → 192 ≤ hi.toNat → o + 1 = msg.length → ReachesEnd msg base o k
  | ptr {o k} {hi lo : UInt8} : msg[o]? = some hi → 192 ≤ hi.toNat → msg[o + 1]? = some lo → base + ((hi.toNat % 64) * 256 + lo.toNat) < o →
      ReachesEnd msg base (base + ((hi.toNat % 64) * 256 + lo.toNat)) k → ReachesEnd msg base o k
  | label {o k} {c : UInt8} : msg[o]? = some c → 1 ≤ c.toNat → c.toNat ≤ 63 → k + 1 + c.toNat < 255 → o + 1 + c.toNat ≤ msg.length →
      ReachesEnd msg base (o + 1 + c.toNat) (k + 1 + c.toNat) → ReachesEnd msg base o k

/-- Reading fields of the types `ts`, from `o` on in an rdata that ends at `e`, leads out of the readable memory: fields that are in order, and then a name
that is cut off by the end of the memory, or SvcParams as in `RdataRunsOff`. -/
inductive Leaves (mem : List UInt8) (len e : Nat) : List Rdf → Nat → Prop
  | name {t ts o} : o < e → IsName t → len = mem.length → ReachesEnd mem 0 o 0 → Leaves mem len e (t :: ts) o
  | svc {ts o j} : o < e → SvcRun mem e o j → j + 4 ≤ e → j + paramSize mem j ≤ e → u16At mem j = 1 → RunsOff mem (j + 4 + u16At mem (j + 2)) (j + 4) →
      Leaves mem len e (.svcparams :: ts) o
  | afterName {t ts o o' n} : o < e → IsName t → Denotes (mem.take (len + 1)) 0 o n → WF n → EncEnd (mem.take (len + 1)) o o' → o' ≤ e →
      Leaves mem len e ts o' → Leaves mem len e (t :: ts) o
  | afterField {t ts o o'} : o < e → o ≤ o' → o' ≤ e → FieldOK t ((mem.drop o).take (o' - o)) → ¬ Terminal t → Leaves mem len e ts o' →
      Leaves mem len e (t :: ts) o

/-- Reading the rdata at `o` leads out of the readable memory. -/
def RdataLeaves (mem : List UInt8) (len o rdlen ty cls : Nat) : Prop :=
  ∃ d, recordDescr ty = some d ∧ d.applies cls = true ∧ Leaves mem len (o + rdlen) d.types o

/-- The octets of the packet from `o` to `o'` are the resource record `rr` (compare `RRIn`). -/
inductive RRMem (mem : List UInt8) (len : Nat) : (sec o o' : Nat) → RR → Prop
  | question {o e n} : Denotes (mem.take (len + 1)) 0 o n → WF n → EncEnd (mem.take (len + 1)) o e → e + 4 ≤ len →
      RRMem mem len 0 o (e + 4) ⟨0, u16At mem e, u16At mem (e + 2), ⟨(wire n).length, wire n⟩, none⟩
  | record {sec o e n x} : sec ≠ 0 → Denotes (mem.take (len + 1)) 0 o n → WF n → EncEnd (mem.take (len + 1)) o e →
      e + 10 + u16At mem (e + 8) ≤ len → RdataMem mem len (e + 10) (u16At mem (e + 8)) (u16At mem e) (u16At mem (e + 2)) x →
      RRMem mem len sec o (e + 10 + u16At mem (e + 8))
        ⟨u32At mem (e + 4), u16At mem e, u16At mem (e + 2), ⟨(wire n).length, wire n⟩, some ⟨x.length % 65536, x⟩⟩

/-- The records of one section whose header count is `n` (compare `RecsIn`). -/
inductive RecsMem (mem : List UInt8) (len sec : Nat) : Nat → Nat → List RR → Nat → Prop
  | zero {o} : RecsMem mem len sec 0 o [] o
  | stop {n} : RecsMem mem len sec (n + 1) len [] len
  | cons {n o o₁ o' rr rrs} : o < len → RRMem mem len sec o o₁ rr → RecsMem mem len sec n o₁ rrs o' → RecsMem mem len sec (n + 1) o (rr :: rrs) o'

/-- Section `sec` begins at `o`: the sections in front of it are records, `all` in sum. -/
inductive SecStart (mem : List UInt8) (len : Nat) : Nat → Nat → List (Nat × RR) → Prop
  | first : SecStart mem len 0 12 []
  | next {sec o rrs o' all} : SecStart mem len sec o all → RecsMem mem len sec (u16At mem (4 + 2 * sec)) o rrs o' →
      SecStart mem len (sec + 1) o' (all ++ rrs.map (sec, ·))

/-- There is a record of section `sec` to be read at `o`, according to the counts of the header, and all that is in front of it is in order. -/
def RecordAt (mem : List UInt8) (len sec o : Nat) : Prop :=
  sec < 4 ∧ o < len ∧ ∃ p all k rrs, SecStart mem len sec p all ∧ k < u16At mem (4 + 2 * sec) ∧ RecsMem mem len sec k p rrs o

/-- The record at `o` has an owner name, type, class, TTL and length, and its rdata, inside the packet, has the property `P` (of place, length, type and
class). -/
def WithRdata (mem : List UInt8) (len o : Nat) (P : Nat → Nat → Nat → Nat → Prop) : Prop :=
  ∃ n e, Denotes (mem.take (len + 1)) 0 o n ∧ WF n ∧ EncEnd (mem.take (len + 1)) o e ∧ e + 10 + u16At mem (e + 8) ≤ len ∧
    P (e + 10) (u16At mem (e + 8)) (u16At mem e) (u16At mem (e + 2))

end Wdns.Spec
