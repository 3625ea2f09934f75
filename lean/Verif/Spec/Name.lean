import Verif.Basic

/-!
# Specification: domain names

A domain name is a list of labels (leftmost first); a label is a list of octets.
Independent of the code.
-/

namespace Wdns.Spec

abbrev Label := List UInt8
abbrev Name := List Label

/-- Uncompressed wire form (RFC 1035 3.1): each label preceded by its length, then a zero octet. -/
def wire : Name → List UInt8
  | [] => [0]
  | l :: n => UInt8.ofNat l.length :: (l ++ wire n)

/-- A label of legal length. -/
def LabelOK (l : Label) : Prop := 1 ≤ l.length ∧ l.length ≤ 63

/-- A legal domain name: legal labels, at most 255 octets on the wire. -/
def WF (n : Name) : Prop := (∀ l ∈ n, LabelOK l) ∧ (wire n).length ≤ 255

instance (n : Name) : Decidable (WF n) := by unfold WF LabelOK; infer_instance

/-- RFC 1035 4.1.4: `Denotes msg base o n` says that the octets of the message `msg`
(whose first octet is at offset `base`) starting at offset `o` encode the name `n`,
where every compression pointer points strictly backwards. -/
inductive Denotes (msg : List UInt8) (base : Nat) : Nat → Name → Prop
  | root {o} : msg[o]? = some 0 → Denotes msg base o []
  | label {o c n} : msg[o]? = some c → 1 ≤ c.toNat → c.toNat ≤ 63 →
      o + 1 + c.toNat ≤ msg.length →
      Denotes msg base (o + 1 + c.toNat) n →
      Denotes msg base o ((msg.drop (o + 1)).take c.toNat :: n)
  | ptr {o hi lo n} : msg[o]? = some hi → 192 ≤ hi.toNat → msg[o + 1]? = some lo →
      base + ((hi.toNat % 64) * 256 + lo.toNat) < o →
      Denotes msg base (base + ((hi.toNat % 64) * 256 + lo.toNat)) n →
      Denotes msg base o n

/-- `Reaches msg base o ls o'`: reading a name at `o`, a decoder collects the labels `ls` and then
stands at offset `o'` (about to read a length octet or pointer there), having followed only strictly
backward pointers. -/
inductive Reaches (msg : List UInt8) (base : Nat) : Nat → Name → Nat → Prop
  | here {o} : Reaches msg base o [] o
  | label {o c ls o'} : msg[o]? = some c → 1 ≤ c.toNat → c.toNat ≤ 63 →
      o + 1 + c.toNat ≤ msg.length →
      Reaches msg base (o + 1 + c.toNat) ls o' →
      Reaches msg base o ((msg.drop (o + 1)).take c.toNat :: ls) o'
  | ptr {o hi lo ls o'} : msg[o]? = some hi → 192 ≤ hi.toNat → msg[o + 1]? = some lo →
      base + ((hi.toNat % 64) * 256 + lo.toNat) < o →
      Reaches msg base (base + ((hi.toNat % 64) * 256 + lo.toNat)) ls o' →
      Reaches msg base o ls o'

/-- Names as seen ignoring ASCII case. -/
def lowerName (n : Name) : Name := n.map (fun l => l.map lower)

/-- Offset one past the encoding of a name that starts at `o`: past the terminating zero
octet, or past the first compression pointer. -/
inductive EncEnd (msg : List UInt8) : Nat → Nat → Prop
  | root {o} : msg[o]? = some 0 → EncEnd msg o (o + 1)
  | ptr {o hi} : msg[o]? = some hi → 192 ≤ hi.toNat → EncEnd msg o (o + 2)
  | label {o c e} : msg[o]? = some c → 1 ≤ c.toNat → c.toNat ≤ 63 →
      EncEnd msg (o + 1 + c.toNat) e → EncEnd msg o e

end Wdns.Spec
