import Verif.Lemmas.Behind
import Verif.Props.Message

/-!
# C40, C67: packets with memory behind them

The exact language of the rdata and message parsers for arbitrary memory: what they accept is determined by the packet and the single octet behind it
(Spec/Behind.lean).
-/

namespace Wdns
open Outcome Wdns.Spec

/-! ## the specification, compared with that of packets at the end of their block -/

theorem not_borrows_end {msg : List UInt8} {ts o x} : ¬ Borrows msg msg.length ts o x := by
  generalize hl : msg.length = len
  intro h
  induction h with
  | here _ _ h2 _ h5 =>
    obtain ⟨e, he, hle⟩ := encEnd_of_denotes h2
    have := encEnd_functional he h5
    omega
  | name _ _ _ _ _ _ ih => exact ih
  | field _ _ _ _ _ ih => exact ih

/-- Without an octet behind the packet, `RdataIn` is `RdataAt`. -/
theorem rdataIn_self {msg : List UInt8} {o rdlen ty cls : Nat} {x} : RdataIn msg msg.length o rdlen ty cls x ↔ RdataAt msg o rdlen ty cls x := by
  constructor
  · rintro (⟨d, h1, h2, h | ⟨_, h⟩⟩ | h)
    · exact .inl ⟨d, h1, h2, h⟩
    · exact absurd h not_borrows_end
    · exact .inr h
  · rintro (⟨d, h1, h2, h⟩ | h)
    · exact .inl ⟨d, h1, h2, .inl h⟩
    · exact .inr h

theorem rrIn_self {msg : List UInt8} {sec o o' : Nat} {rr} : RRIn msg msg.length sec o o' rr ↔ RRAt msg sec o o' rr := by
  constructor
  · intro h
    cases h with
    | question h1 h2 h3 h4 => exact .question h1 h2 h3 h4
    | record h0 h1 h2 h3 h4 h5 => exact .record h0 h1 h2 h3 h4 (rdataIn_self.mp h5)
  · intro h
    cases h with
    | question h1 h2 h3 h4 => exact .question h1 h2 h3 h4
    | record h0 h1 h2 h3 h4 h5 => exact .record h0 h1 h2 h3 h4 (rdataIn_self.mpr h5)

theorem recsIn_self {msg : List UInt8} {sec n o o' : Nat} {rrs} : RecsIn msg msg.length sec n o rrs o' ↔ Recs msg sec n o rrs o' := by
  constructor
  · intro h
    generalize hl : msg.length = len at h
    induction h with
    | zero => exact .zero
    | stop => subst hl; exact .stop
    | cons h1 h2 _ ih => subst hl; exact .cons h1 (rrIn_self.mp h2) ih
  · intro h
    induction h with
    | zero => exact .zero
    | stop => exact .stop
    | cons h1 h2 _ ih => exact .cons h1 (rrIn_self.mpr h2) ih

/-- **C67 (the specification).** Without an octet behind the packet, the records are those of `MsgRecs`. -/
theorem C67_records_alone (msg : List UInt8) (all : List (Nat × RR)) : MsgRecsIn msg msg.length all ↔ MsgRecs msg all := by
  constructor
  · rintro ⟨h0, h1, h2, h3⟩
    exact .mk (recsIn_self.mp h0) (recsIn_self.mp h1) (recsIn_self.mp h2) (recsIn_self.mp h3)
  · rintro ⟨h0, h1, h2, h3⟩
    exact .mk (recsIn_self.mpr h0) (recsIn_self.mpr h1) (recsIn_self.mpr h2) (recsIn_self.mpr h3)

/-! ## C40 -/

/-- **C40 (arbitrary memory), partial.** Wherever the packet lies in memory, the rdata parser accepts exactly the rdatas of the type's schema; a name at the
very end of the packet may use the octet behind it as its last.  Missing: SVCB/HTTPS with a SvcParam length field of 65532 or more. -/
theorem C40_schema_mem_partial (mem : List UInt8) (len o rdlen ty cls : Nat) (r : CRdata) (hm : len ≤ mem.length) (h64 : len < 2 ^ 64)
    (hfit : o + rdlen ≤ len) (hl : rdlen < 65536) (hsvc : ty = 64 ∨ ty = 65 → cls = 1 → ¬ LongSvc (mem.take len) o rdlen) :
    parseRdata mem 0 len o rdlen ty cls = ok r ↔
      ∃ x, RdataIn (mem.take (len + 1)) len o rdlen ty cls x ∧ r = ⟨x.length % 65536, x⟩ :=
  parseRdata_in_iff hm h64 hfit hl hsvc

/-- A case in which the octet behind the packet matters: a CNAME to `a.` without its last octet. -/
example : ∃ x, RdataIn [1, 97, 0] 2 0 2 5 1 x ∧ (⟨3, [1, 97, 0]⟩ : CRdata) = ⟨x.length % 65536, x⟩ :=
  (C40_schema_mem_partial [1, 97, 0, 9] 2 0 2 5 1 ⟨3, [1, 97, 0]⟩ (by decide) (by decide) (by decide) (by decide) (by simp)).mp (by decide +kernel)

example : ¬ ∃ x, RdataIn [1, 97, 1] 2 0 2 5 1 x ∧ (⟨3, [1, 97, 0]⟩ : CRdata) = ⟨x.length % 65536, x⟩ :=
  fun h => absurd ((C40_schema_mem_partial [1, 97, 1, 9] 2 0 2 5 1 ⟨3, [1, 97, 0]⟩ (by decide) (by decide) (by decide) (by decide) (by simp)).mpr h)
    (by decide +kernel)

/-! ## C67 -/

/-- **C67 (soundness, arbitrary memory), partial.** If the parser accepts a packet, then the packet, completed by at most the octet behind it, is a header
followed by records, and the message object holds exactly these.  Missing: packets with an SVCB/HTTPS record that has a SvcParam with a
length field of 65532 or more. -/
theorem C67_parse_sound_mem_partial (mem : List UInt8) (len : Nat) (m : Message) (hm : len ≤ mem.length) (h64 : len < 2 ^ 64)
    (hno : SvcNoLong (mem.take len)) (h : parseMessage mem len = ok m) :
    ∃ all, MsgRecsIn (mem.take (len + 1)) len all ∧ MessageOf (mem.take len) all m := by
  obtain ⟨h12, all, h1, h2, _⟩ := parseMessage_ok hm h
  exact ⟨all, (readAll_in_iff hm h64 h12 hno).mp h1, (messageOf_take h12).mpr h2⟩

/-- **C67 (completeness, arbitrary memory), partial.** Every such packet is accepted, with these records. -/
theorem C67_parse_complete_mem_partial (mem : List UInt8) (len : Nat) (all : List (Nat × RR)) (hm : len ≤ mem.length) (h64 : len < 2 ^ 64)
    (h12 : 12 ≤ len) (hno : SvcNoLong (mem.take len)) (h : MsgRecsIn (mem.take (len + 1)) len all) :
    ∃ m, parseMessage mem len = ok m ∧ MessageOf (mem.take len) all m := by
  obtain ⟨m, h1, h2, _⟩ := parseMessage_of_readAll hm h12 ((readAll_in_iff hm h64 h12 hno).mpr h)
  exact ⟨m, h1, (messageOf_take h12).mpr h2⟩

/-- **C67 (the records are determined), partial.** A packet and the octet behind it are records in at most one way. -/
theorem C67_records_unique_partial (buf : List UInt8) (len : Nat) (a b : List (Nat × RR)) (hl : len ≤ buf.length) (hl' : buf.length ≤ len + 1)
    (h64 : len < 2 ^ 64) (h12 : 12 ≤ len) (hno : SvcNoLong (buf.take len)) (ha : MsgRecsIn buf len a) (hb : MsgRecsIn buf len b) : a = b := by
  have ht : buf.take (len + 1) = buf := List.take_of_length_le hl'
  rw [← ht] at ha hb
  have h1 := (readAll_in_iff hl h64 h12 hno).mpr ha
  have h2 := (readAll_in_iff hl h64 h12 hno).mpr hb
  rw [h1] at h2
  cases h2
  rfl

/-- The packet that is accepted only because of the octet behind it: its records. -/
theorem overread_recs : ∃ all, MsgRecsIn (overreadMsg ++ [0]) overreadMsg.length all := by
  obtain ⟨m, h⟩ := C35_safe_violated.2.1
  have hs : (overreadMsg ++ [0]).take overreadMsg.length = overreadMsg := by decide
  obtain ⟨all, h1, -⟩ := C67_parse_sound_mem_partial (overreadMsg ++ [0]) overreadMsg.length m (by decide) (by decide)
    (by rw [hs]; exact svcNoLong_of_types (by decide +kernel)) h
  exact ⟨all, h1⟩

/-- It has none on its own. -/
example : ¬ ∃ all, MsgRecs overreadMsg all := by
  rintro ⟨all, h⟩
  obtain ⟨m, h1, -⟩ := C67_parse_complete overreadMsg overreadMsg.length all (Nat.le_refl _) (by decide) (by decide) (by rw [List.take_length]; exact h)
  rw [C35_safe_violated.1] at h1
  cases h1

/-- With any octets after the one behind, it is accepted. -/
example : ∃ m, parseMessage (overreadMsg ++ [0, 7, 7]) overreadMsg.length = ok m := by
  obtain ⟨all, h⟩ := overread_recs
  have hs : (overreadMsg ++ [0, 7, 7]).take overreadMsg.length = overreadMsg := by decide
  obtain ⟨m, h1, -⟩ := C67_parse_complete_mem_partial (overreadMsg ++ [0, 7, 7]) overreadMsg.length all (by decide) (by decide) (by decide)
    (by rw [hs]; exact svcNoLong_of_types (by decide +kernel))
    ((show (overreadMsg ++ [0, 7, 7]).take (overreadMsg.length + 1) = overreadMsg ++ [0] by decide) ▸ h)
  exact ⟨m, h1⟩

example (a b : List (Nat × RR)) : MsgRecsIn (overreadMsg ++ [0]) overreadMsg.length a → MsgRecsIn (overreadMsg ++ [0]) overreadMsg.length b → a = b :=
  C67_records_unique_partial (overreadMsg ++ [0]) overreadMsg.length a b (by decide) (by decide) (by decide) (by decide)
    (by rw [(by decide : List.take overreadMsg.length (overreadMsg ++ ([0] : List UInt8)) = overreadMsg)]; exact svcNoLong_of_types (by decide +kernel))

end Wdns
