import Verif.Props.Message
import Verif.Props.ParseRdata

/-!
# C39 in a whole message

The length field of a stored rdata wraps already for a message that fits a TCP or UDP packet.
-/

namespace Wdns
open Outcome Spec

theorem denotes_append {a b : List UInt8} {base o : Nat} {n : Name} (h : Denotes a base o n) : Denotes (a ++ b) base o n := by
  have key : ∀ {i : Nat} {c : UInt8}, a[i]? = some c → (a ++ b)[i]? = some c := fun {i c} h => by
    have hi := (List.getElem?_eq_some_iff.mp h).1
    rw [List.getElem?_append_left hi]; exact h
  induction h with
  | root h => exact .root (key h)
  | @label o c n h1 h2 h3 h4 _ ih =>
    have e : ((a ++ b).drop (o + 1)).take c.toNat = (a.drop (o + 1)).take c.toNat := by
      rw [List.drop_append_of_le_length (by omega), List.take_append_of_le_length (by simp; omega)]
    have := Denotes.label (key h1) h2 h3 (by simp; omega) ih
    rwa [e] at this
  | ptr h1 h2 h3 h4 _ ih => exact .ptr (key h1) h2 (key h3) h4 ih

/-- A header with one answer, and an NXT record of the root with 65343 octets of rdata.  The rdata starts with a pointer to the second
octet of its own length field (63), so that the next domain name in the rdata has as its first label the pointer itself and the octets
behind it. -/
def wrapHead : List UInt8 :=
  [0, 0, 0x80, 0, 0, 0, 0, 1, 0, 0, 0, 0] ++ [0, 0, 30, 0, 1, 0, 0, 0, 0, 0xff, 63] ++ [192, 22] ++ List.replicate 61 97 ++
  63 :: List.replicate 63 98 ++ 63 :: List.replicate 63 99 ++ 61 :: List.replicate 61 100 ++ [0]

def wrapName : Name := [192 :: 22 :: List.replicate 61 97, List.replicate 63 98, List.replicate 63 99, List.replicate 61 100]

theorem wrapName_denotes : Denotes wrapHead 0 23 wrapName := by
  refine .ptr (hi := 192) (lo := 22) (by decide +kernel) (by decide) (by decide +kernel) (by decide) ?_
  have l0 := Denotes.label (msg := wrapHead) (base := 0) (o := 22) (c := 63) (n := wrapName.drop 1) (by decide +kernel) (by decide) (by decide) (by decide +kernel) ?_
  · exact l0
  have l1 := Denotes.label (msg := wrapHead) (base := 0) (o := 86) (c := 63) (n := wrapName.drop 2) (by decide +kernel) (by decide) (by decide) (by decide +kernel) ?_
  · exact l1
  have l2 := Denotes.label (msg := wrapHead) (base := 0) (o := 150) (c := 63) (n := wrapName.drop 3) (by decide +kernel) (by decide) (by decide) (by decide +kernel) ?_
  · exact l2
  have l3 := Denotes.label (msg := wrapHead) (base := 0) (o := 214) (c := 61) (n := []) (by decide +kernel) (by decide) (by decide) (by decide +kernel) ?_
  · exact l3
  exact .root (by decide +kernel)

/-- **C39 is violated** in a message of 65366 octets: it is accepted, its only record has 65596 octets of rdata, and the length field
of that rdata says 60. -/
theorem C39_message_violated :
    ∃ (msg : List UInt8) (m : Message) (a : RRsetArray) (s : RRset) (d : CRdata),
      msg.length = 65366 ∧ parseMessage msg msg.length = ok m ∧ m.sections[1]? = some a ∧ a.rrsets = [s] ∧ s.rdatas = [d] ∧
      d.data.length = 65596 ∧ d.len = 60 := by
  obtain ⟨tl, htl⟩ : ∃ tl : List UInt8, tl.length = 65089 := ⟨List.replicate 65089 0, List.length_replicate⟩
  have hhl : wrapHead.length = 277 := by decide +kernel
  have hwf : WF wrapName := by decide +kernel
  have hlen : (wire wrapName).length = 255 := by decide +kernel
  generalize hmsg : wrapHead ++ tl = msg
  have hml : msg.length = 65366 := by rw [← hmsg]; simp [hhl, htl]
  have hget : ∀ i, i < 277 → msg[i]? = wrapHead[i]? := fun i hi => by rw [← hmsg, List.getElem?_append_left (by omega)]
  have hgd : ∀ i, i < 277 → msg.getD i 0 = wrapHead.getD i 0 := fun i hi => by
    rw [List.getD_eq_getElem?_getD, List.getD_eq_getElem?_getD, hget i hi]
  have hu : ∀ i, i + 1 < 277 → u16At msg i = u16At wrapHead i := fun i hi => by
    unfold u16At; rw [hgd i (by omega), hgd (i + 1) hi]
  have hn : Denotes msg 0 23 wrapName := by rw [← hmsg]; exact denotes_append wrapName_denotes
  generalize hx : wire wrapName ++ (msg.drop 25).take (23 + 65343 - 25) = x
  have hxl : x.length = 65596 := by rw [← hx]; simp [hlen, hml]
  have hlay : Layout msg 0 (23 + 65343) [.name, .bytes] 23 x := by
    rw [← hx]
    refine .name (o' := 25) (by omega) trivial hn hwf (.ptr (o := 23) (hi := 192) (by rw [hget 23 (by omega)]; decide +kernel) (by decide)) (by omega) ?_
    have := Layout.field (msg := msg) (base := 0) (e := 23 + 65343) (t := .bytes) (ts := [])
      (o := 25) (o' := 23 + 65343) (rest := []) (by omega) (by omega) (by omega) trivial (fun _ => rfl) .done
    rw [List.append_nil] at this
    exact this
  have e0 : u16At msg 13 = 30 := by rw [hu 13 (by omega)]; decide +kernel
  have e1 : u16At msg 15 = 1 := by rw [hu 15 (by omega)]; decide +kernel
  have e2 : u16At msg 21 = 65343 := by rw [hu 21 (by omega)]; decide +kernel
  have hrr : RRAt msg 1 12 (13 + 10 + u16At msg 21)
      ⟨u32At msg 17, u16At msg 13, u16At msg 15, ⟨(wire ([] : Name)).length, wire []⟩, some ⟨x.length % 65536, x⟩⟩ := by
    refine .record (n := []) (by decide) (.root ?_) (by decide) (.root ?_) ?_ (Or.inl ⟨⟨0, [.name, .bytes]⟩, ?_, ?_, ?_⟩)
    · rw [hget 12 (by omega)]; decide +kernel
    · rw [hget 12 (by omega)]; decide +kernel
    · rw [show 12 + 1 + 8 = 21 by rfl, e2]; omega
    · rw [e0]; rfl
    · rw [show u16At msg (12 + 1 + 2) = 1 from e1]; rfl
    · rw [show 12 + 1 + 8 = 21 by rfl, e2]; exact hlay
  have hrecs : MsgRecs msg [(1, ⟨u32At msg 17, u16At msg 13, u16At msg 15, ⟨(wire ([] : Name)).length, wire []⟩, some ⟨x.length % 65536, x⟩⟩)] := by
    have z4 : u16At msg 4 = 0 := by rw [hu 4 (by omega)]; decide +kernel
    have z6 : u16At msg 6 = 1 := by rw [hu 6 (by omega)]; decide +kernel
    have z8 : u16At msg 8 = 0 := by rw [hu 8 (by omega)]; decide +kernel
    have z10 : u16At msg 10 = 0 := by rw [hu 10 (by omega)]; decide +kernel
    have := MsgRecs.mk (msg := msg) (r0 := []) (r2 := []) (r3 := []) (p1 := 12) (by rw [z4]; exact .zero)
      (by rw [z6]; exact .cons (by omega) hrr .zero) (by rw [z8]; exact .zero) (by rw [z10]; exact .zero)
    simpa using this
  have htake : msg.take msg.length = msg := List.take_length
  obtain ⟨m, h1, h2, -⟩ := parseMessage_of_readAll (Nat.le_refl _) (by omega)
    (readAll_of_msgRecs (mem := msg) (len := msg.length) (Nat.le_refl _) (by omega) (by omega) (by rw [htake]; exact hrecs))
  obtain ⟨-, -, -, h4, h5⟩ := h2
  obtain ⟨a, ha⟩ : ∃ a, m.sections[1]? = some a := by
    cases hq : m.sections[1]? with
    | none => rw [List.getElem?_eq_none_iff] at hq; omega
    | some a => exact ⟨a, rfl⟩
  have hs := h5 1 a ha
  have hsec : ∀ rr : RR, rr.rrtype = 30 → sectionOf [(1, rr)] 1 = [rr] := by
    intro rr h
    simp [sectionOf, isOpt, h]
  rw [hsec _ e0] at hs
  simp only [SectionIs, show ¬ (1 : Nat) = 0 by decide, if_false] at hs
  have hk := hs.keys
  rw [List.map_cons, List.map_nil, show ∀ k : Nat × Nat × List UInt8, [k].eraseDups = [k] from fun _ => rfl] at hk
  obtain ⟨s, hsl⟩ : ∃ s, a.rrsets = [s] := by
    have := congrArg List.length hk
    simp only [List.length_map, List.length_singleton] at this
    exact List.length_eq_one_iff.mp this
  have hrd := hs.rdatas s (by simp [hsl])
  rw [hsl, List.map_cons, List.map_nil, List.cons.injEq] at hk
  simp only [List.filter_cons, hk.1, decide_true, if_true, List.filter_nil, List.filterMap_cons, List.filterMap_nil] at hrd
  refine ⟨msg, m, a, s, ⟨x.length % 65536, x⟩, hml, h1, ha, hsl, hrd, hxl, ?_⟩
  rw [hxl]

end Wdns
