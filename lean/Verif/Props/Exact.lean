import Verif.Lemmas.Wrapped

/-!
# C34, C35, C40, C67: the parser described completely

For every packet, anywhere in memory, without any restriction on its contents: what is accepted, when the parser does not return, and when it leaves the
readable memory (Spec/Wrapped.lean).
-/

namespace Wdns
open Outcome Wdns.Spec

/-- **C40, exactly.** The rdatas that the parser accepts, in any memory, and what it stores: those of the type's schema (a name at the very end of the packet may end
with the octet behind it), and SVCB/HTTPS rdatas whose SvcParams, sizes counted modulo 65536, lead exactly to the end. -/
theorem C40_schema_exactly (mem : List UInt8) (len o rdlen ty cls : Nat) (r : CRdata) (hm : len ≤ mem.length) (h64 : len < 2 ^ 64)
    (hfit : o + rdlen ≤ len) (hl : rdlen < 65536) :
    parseRdata mem 0 len o rdlen ty cls = ok r ↔ ∃ x, RdataMem mem len o rdlen ty cls x ∧ r = ⟨x.length % 65536, x⟩ :=
  parseRdata_mem_iff hm h64 hfit hl

/-- **C34, exactly.** The packets on which the parser does not return: there is a record, everything in front of it being in order, of type SVCB or HTTPS and
class IN, whose SvcParams lead to one with the length field 65532 and a value that suits its key. -/
theorem C34_hangs_exactly (mem : List UInt8) (len : Nat) (hm : len ≤ mem.length) (h64 : len < 2 ^ 64) :
    parseMessage mem len = hang ↔
      12 ≤ len ∧ ∃ sec o, RecordAt mem len sec o ∧ sec ≠ 0 ∧ WithRdata mem len o (RdataStalls mem len) := by
  have key : 12 ≤ len → (readAll mem len (headerSecs mem) 12 = hang ↔
      ∃ sec o, RecordAt mem len sec o ∧ sec ≠ 0 ∧ WithRdata mem len o (RdataStalls mem len)) := by
    intro h12
    rw [readAll_mem_bad hm h64 bad_hang.toStops h12]
    refine exists_congr fun sec => exists_congr fun o => and_congr_right fun _ => ?_
    rw [parseMessageRr_mem_bad hm h64 bad_hang (fun i n ty cls h1 h2 => parseRdata_mem_hang hm h64 h1 h2)]
    exact or_iff_right (C03_unpack_terminates _ _ _ _ _).1
  rcases parseMessage_eq hm with ⟨h, h'⟩ | ⟨h12, ⟨_, _, h, h', _⟩ | ⟨_, h, h'⟩ | ⟨h, h'⟩ | ⟨h, h'⟩ | ⟨h, h'⟩⟩
  · rw [h']; exact ⟨by simp, fun h => by omega⟩
  all_goals rw [h', ← and_iff_right (a := 12 ≤ len) (b := (_ : Outcome Message) = hang) h12]
  all_goals refine and_congr_right fun _ => ?_
  all_goals rw [← key h12, h]; simp

/-- **C35, exactly.** The packets on which the parser leaves the readable memory: there is a record, everything in front of it being in order, whose owner name, or a name in whose rdata, is
cut off by the end of the packet, which is the end of the readable memory too; or one of type SVCB or HTTPS and class IN whose SvcParams lead to an `alpn` whose
strings are not all readable (`RdataLeaves`). -/
theorem C35_leaves_exactly (mem : List UInt8) (len : Nat) (hm : len ≤ mem.length) (h64 : len < 2 ^ 64) :
    parseMessage mem len = ub ↔
      12 ≤ len ∧ ∃ sec o, RecordAt mem len sec o ∧
        ((len = mem.length ∧ ReachesEnd mem 0 o 0) ∨ sec ≠ 0 ∧ WithRdata mem len o (RdataLeaves mem len)) := by
  have key : 12 ≤ len → (readAll mem len (headerSecs mem) 12 = ub ↔ ∃ sec o, RecordAt mem len sec o ∧
        ((len = mem.length ∧ ReachesEnd mem 0 o 0) ∨ sec ≠ 0 ∧ WithRdata mem len o (RdataLeaves mem len))) := by
    intro h12
    rw [readAll_mem_bad hm h64 bad_ub.toStops h12]
    refine exists_congr fun sec => exists_congr fun o => and_congr_right fun hr => ?_
    rw [parseMessageRr_mem_bad hm h64 bad_ub (fun i n ty cls h1 h2 => parseRdata_leaves hm h64 h1 h2)]
    refine or_congr ?_ Iff.rfl
    by_cases hq : len = mem.length
    · subst hq
      rw [unpackName_ub (by decide) (Nat.zero_le _) hr.2.1]
      exact ⟨fun h => ⟨rfl, h⟩, fun h => h.2⟩
    · have := (C04_unpack_safe_partial maxlenName mem 0 len o (by decide) (by omega)).1.1
      exact ⟨fun h => absurd h this, fun h => absurd h.1 hq⟩
  rcases parseMessage_eq hm with ⟨h, h'⟩ | ⟨h12, ⟨_, _, h, h', _⟩ | ⟨_, h, h'⟩ | ⟨h, h'⟩ | ⟨h, h'⟩ | ⟨h, h'⟩⟩
  · rw [h']; exact ⟨by simp, fun h => by omega⟩
  all_goals rw [h', ← and_iff_right (a := 12 ≤ len) (b := (_ : Outcome Message) = ub) h12]
  all_goals refine and_congr_right fun _ => ?_
  all_goals rw [← key h12, h]; simp

/-- **C35, exactly, with an octet to spare.** If at least the octet behind the packet is readable, only an `alpn` whose strings are not all readable makes the parser leave
the memory. -/
theorem C35_overreads_exactly (mem : List UInt8) (len : Nat) (hm : len < mem.length) (h64 : len < 2 ^ 64) :
    parseMessage mem len = ub ↔
      12 ≤ len ∧ ∃ sec o, RecordAt mem len sec o ∧ sec ≠ 0 ∧ WithRdata mem len o (RdataRunsOff mem len) := by
  rw [C35_leaves_exactly mem len (by omega) h64]
  refine and_congr_right fun _ => exists_congr fun sec => exists_congr fun o => and_congr_right fun _ => ?_
  rw [or_iff_right (fun h => by omega)]
  refine and_congr_right fun _ => exists_congr fun n => exists_congr fun e => and_congr_right fun _ => and_congr_right fun _ => and_congr_right fun _ =>
    and_congr_right fun hle => ?_
  rw [← parseRdata_leaves (by omega) h64 hle (u16At_lt _ _), parseRdata_mem_ub (by omega) h64 hle (u16At_lt _ _) hm]

/-- **C04, exactly.** Decompression reads behind a message that is followed by nothing readable if and only if the name leads to its end (`ReachesEnd`). -/
theorem C04_unpack_leaves (cap : Nat) (msg : List UInt8) (p src : Nat) (hcap : 255 ≤ cap) (hp : p ≤ src) (hs : src < msg.length) :
    unpackName cap msg p msg.length src = ub ↔ ReachesEnd msg p src 0 :=
  unpackName_ub hcap hp hs

example : ReachesEnd [1, 97] 0 0 0 := (C04_unpack_leaves 255 [1, 97] 0 0 (by decide) (by decide) (by decide)).mp C04_unpack_safe_violated.1

example : ¬ ReachesEnd [1, 97, 0] 0 0 0 :=
  fun h => absurd ((C04_unpack_leaves 255 [1, 97, 0] 0 0 (by decide) (by decide) (by decide)).mpr h) (by decide)

/-- **C67, exactly.** For every packet anywhere in memory: the parser accepts it if and only if it is a header followed by records (in the sense of Spec/Wrapped.lean); these records
are determined by the memory, and the message object holds exactly them. -/
theorem C67_parse_exactly (mem : List UInt8) (len : Nat) (hm : len ≤ mem.length) (h64 : len < 2 ^ 64) :
    ((∃ m, parseMessage mem len = ok m) ↔ 12 ≤ len ∧ ∃ o all, SecStart mem len 4 o all) ∧
    ∀ m o all, parseMessage mem len = ok m → SecStart mem len 4 o all → MessageOf (mem.take len) all m := by
  constructor
  · constructor
    · rintro ⟨m, h⟩
      obtain ⟨h12, all, h1, _⟩ := parseMessage_ok hm h
      obtain ⟨o, h2⟩ := (readAll_mem_iff hm h64 h12).mp h1
      exact ⟨h12, o, all, h2⟩
    · rintro ⟨h12, o, all, h⟩
      obtain ⟨m, h1, _⟩ := parseMessage_of_readAll hm h12 ((readAll_mem_iff hm h64 h12).mpr ⟨o, h⟩)
      exact ⟨m, h1⟩
  · intro m o all h hs
    obtain ⟨h12, all', h1, h2, _⟩ := parseMessage_ok hm h
    rw [(readAll_mem_iff hm h64 h12).mpr ⟨o, hs⟩] at h1
    cases h1
    exact (messageOf_take h12).mpr h2

/-- **C67 (the records are determined by the memory).** -/
theorem C67_records_determined (mem : List UInt8) (len o o' : Nat) (a b : List (Nat × RR)) (hm : len ≤ mem.length) (h64 : len < 2 ^ 64) (h12 : 12 ≤ len)
    (ha : SecStart mem len 4 o a) (hb : SecStart mem len 4 o' b) : a = b := by
  have h1 := (readAll_mem_iff hm h64 h12).mpr ⟨o, ha⟩
  have h2 := (readAll_mem_iff hm h64 h12).mpr ⟨o', hb⟩
  rw [h1] at h2
  cases h2
  rfl

/-! ## cases -/

/-- The packet of 30 octets on which the parser does not return has such a record. -/
example : ∃ sec o, RecordAt hangMsg 30 sec o ∧ sec ≠ 0 ∧ WithRdata hangMsg 30 o (RdataStalls hangMsg 30) :=
  ((C34_hangs_exactly hangMsg 30 (by decide) (by decide)).mp C34_terminates_violated.1).2

/-- The sample message has no such record. -/
example : ¬ ∃ sec o, RecordAt sampleMsg 46 sec o ∧ sec ≠ 0 ∧ WithRdata sampleMsg 46 o (RdataStalls sampleMsg 46) :=
  fun h => absurd ((C34_hangs_exactly sampleMsg 46 (by decide) (by decide)).mpr ⟨by decide, h⟩) (by decide +kernel)

/-- An `alpn` of length 65532, with 1000 octets behind the packet, is read beyond them. -/
example : ∃ sec o, RecordAt (alpnMsg ++ List.replicate 1000 7) 30 sec o ∧ sec ≠ 0 ∧
    WithRdata (alpnMsg ++ List.replicate 1000 7) 30 o (RdataRunsOff (alpnMsg ++ List.replicate 1000 7) 30) :=
  ((C35_overreads_exactly _ 30 (by rw [List.length_append, List.length_replicate]; decide) (by decide)).mp
    (C35_overread_violated.1 _ (by rw [List.length_replicate]; decide))).2

/-- The packet that ends in an unfinished name leads out of the memory if nothing is behind it. -/
example : ∃ sec o, RecordAt overreadMsg overreadMsg.length sec o ∧ ((overreadMsg.length = overreadMsg.length ∧ ReachesEnd overreadMsg 0 o 0) ∨
    sec ≠ 0 ∧ WithRdata overreadMsg overreadMsg.length o (RdataLeaves overreadMsg overreadMsg.length)) :=
  ((C35_leaves_exactly _ _ (by decide) (by decide)).mp C35_safe_violated.1).2

example : ∃ o all, SecStart sampleMsg 46 4 o all :=
  ((C67_parse_exactly sampleMsg 46 (by decide) (by decide)).1.mp ⟨_, sample_parse⟩).2

/-- The packet that is accepted only because of the octet behind it. -/
example : (∃ o all, SecStart (overreadMsg ++ [0]) overreadMsg.length 4 o all) ∧ ¬ ∃ o all, SecStart (overreadMsg ++ [1]) overreadMsg.length 4 o all := by
  refine ⟨((C67_parse_exactly _ _ (by decide) (by decide)).1.mp C35_safe_violated.2.1).2, fun h => ?_⟩
  obtain ⟨m, hm⟩ := (C67_parse_exactly (overreadMsg ++ [1]) overreadMsg.length (by decide) (by decide)).1.mpr ⟨by decide, h⟩
  rw [C35_safe_violated.2.2] at hm
  cases hm

/-- The rdata that is accepted because of the wrapped size. -/
example : ∃ x, RdataMem [0, 1, 0, 0, 5, 255, 255, 0, 0, 0] 10 0 10 64 1 x ∧ (⟨10, [0, 1, 0, 0, 5, 255, 255, 0, 0, 0]⟩ : CRdata) = ⟨x.length % 65536, x⟩ :=
  (C40_schema_exactly _ 10 0 10 64 1 _ (by decide) (by decide) (by decide) (by decide)).mp C40_schema_violated.1

end Wdns
