import Verif.Spec.EdnsText
import Verif.Spec.Message

/-!
# Specification: text of resource records, RRsets and messages
-/

namespace Wdns.Spec

/-- The mnemonic of a class, or `CLASSnnn` (RFC 3597). -/
def classText (c : Nat) : List UInt8 := (rrclassToStr c).getD (ascii "CLASS" ++ decText c)

/-- What follows the type in the line of a record: a space and the text of its rdata `w`.  An rdata without any token leaves
no trailing space; an rdata of a type whose layout is known for another class only is not shown. -/
inductive RdPart (ty cls : Nat) (w : List UInt8) : List UInt8 → Prop
  | generic : recordDescr ty = none → RdPart ty cls w ([32] ++ genericText w)
  | hidden {d} : recordDescr ty = some d → d.applies cls = false → RdPart ty cls w [32]
  | noOpt : ty = 41 → w = [] → RdPart ty cls w []
  | opt {s} : ty = 41 → OptsText w s → RdPart ty cls w ([32] ++ s)
  | known {d toks} : ty ≠ 41 → recordDescr ty = some d → d.applies cls = true → RdataToks d.types w toks →
      RdPart ty cls w (if toks = [] then [] else [32] ++ spaced toks)

/-- The line of a record in section `sec` (0: a question): owner name, TTL, class, type, rdata. -/
inductive RRText : Nat → RR → List UInt8 → Prop
  | question {rr n} : rr.name.bytes = wire n → WF n →
      RRText 0 rr (ascii ";" ++ nameText n ++ ascii " " ++ classText rr.rrclass ++ ascii " " ++ typeText rr.rrtype ++ ascii "\n")
  | record {sec rr n d t} : sec ≠ 0 → rr.name.bytes = wire n → WF n → rr.rdata = some d →
      RdPart rr.rrtype rr.rrclass d.bytes t →
      RRText sec rr (nameText n ++ ascii " " ++ decText rr.rrttl ++ ascii " " ++ classText rr.rrclass ++ ascii " " ++
        typeText rr.rrtype ++ t ++ ascii "\n")

/-- The lines of several records, one after the other, in order. -/
inductive LinesOf (sec : Nat) : List RR → List UInt8 → Prop
  | nil : LinesOf sec [] []
  | cons {rr rrs l t} : RRText sec rr l → LinesOf sec rrs t → LinesOf sec (rr :: rrs) (l ++ t)

/-- The lines for EDNS: nothing without an OPT record; otherwise version, DO flag, payload size, and one line per option. -/
def EdnsLines (e : Edns) (t : List UInt8) : Prop :=
  if e.present = false then t = []
  else
    let head := ascii "\n;; OPT PSEUDOSECTION:\n; EDNS: version: " ++ decText e.version ++ ascii ", flags:" ++
      (if e.flags / 32768 % 2 = 1 then ascii " do" else []) ++ ascii "; udp: " ++ decText e.size
    match e.options with
    | none => t = head
    | some o => (o.bytes = [] ∧ t = head) ∨
        (∃ s, OptsText o.bytes s ∧ t = head ++ ascii "\n; " ++ s.flatMap fun c => if c = 10 then ascii "\n; " else [c])

/-- The names of the operation codes (RFC 1035, 1996, 2136), otherwise the number. -/
def opcodeText (n : Nat) : List UInt8 :=
  match n with
  | 0 => ascii "QUERY"
  | 1 => ascii "IQUERY"
  | 2 => ascii "STATUS"
  | 4 => ascii "NOTIFY"
  | 5 => ascii "UPDATE"
  | n => decText n

/-- The header lines: operation code, response code, id, the flags that are set, and the number of records per section. -/
def headerText (m : Message) (n0 n1 n2 n3 : Nat) : List UInt8 :=
  let flag (bit : Nat) (s : String) : List UInt8 := if m.flags / 2 ^ bit % 2 = 1 then ascii s else []
  ascii ";; ->>HEADER<<- opcode: " ++ opcodeText (m.flags / 2 ^ 11 % 16) ++
  ascii ", rcode: " ++ (rcodeToStr m.rcode).getD (decText m.rcode) ++ ascii ", id: " ++ decText m.id ++ ascii "\n;; flags:" ++
  flag 15 " qr" ++ flag 10 " aa" ++ flag 9 " tc" ++ flag 8 " rd" ++ flag 7 " ra" ++ flag 5 " ad" ++ flag 4 " cd" ++
  ascii "; QUERY: " ++ decText n0 ++ ascii ", ANSWER: " ++ decText n1 ++ ascii ", AUTHORITY: " ++ decText n2 ++
  ascii ", ADDITIONAL: " ++ decText n3 ++ ascii "\n"

end Wdns.Spec

/-- Every rdata stored in an RRset of the message has fewer than 65536 octets, so that the length field of the rdata can tell its length. -/
def Wdns.Message.Fits (m : Wdns.Message) : Prop := ∀ a ∈ m.sections, ∀ s ∈ a.rrsets, ∀ d ∈ s.rdatas, d.data.length < 65536
