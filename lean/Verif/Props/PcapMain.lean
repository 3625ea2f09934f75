import Verif.Model.Dump
import Verif.Props.Pcap
import Verif.Lemmas.Tables

/-!
# C90, continued: a whole run of `wdns-dump-pcap`
-/

namespace Wdns
open Outcome Spec

/-- What a file of packets leads to, if every packet of it is handled. -/
theorem pcapLoop_eq {f : List UInt8 → List UInt8} {d : List UInt8 → Bool} : ∀ {ps : List (List UInt8)},
    (∀ p ∈ ps, pcapHandler p = ok (f p, d p)) → pcapLoop ps = ok (ps.flatMap f, ps.filter d)
  | [], _ => rfl
  | p :: ps, h => by
    rw [pcapLoop]
    rw [h p (by simp), ok_bind, pcapLoop_eq (ps := ps) (fun q hq => h q (by simp [hq])), ok_bind, List.flatMap_cons, List.filter_cons]
    cases d p <;> rfl

/-- **C90.**  A run on a file of packets each of which is handled (`C90_prints_partial`, `C90_dumps_partial`, `C90_skipped` say how): all
packets that the filter lets through are printed in their order, those that could not be parsed are copied to the output file in their
order, no others are, and both numbers are reported. -/
theorem C90_run {pc : Pcap} {argv0 inFile outFile bpf : List UInt8} {pkts : List (List UInt8)} {keep : List UInt8 → Bool}
    (hi : pc.input inFile = .ok pkts) (ho : pc.output outFile = none) (hf : pc.filter bpf = .ok keep)
    {f : List UInt8 → List UInt8} {d : List UInt8 → Bool} (h : ∀ p ∈ pkts, keep p = true → pcapHandler p = ok (f p, d p)) (hs : pkts.length < 2 ^ 64) :
    dumpPcap pc [argv0, inFile, outFile, bpf] = ok ⟨0, (pkts.filter keep).flatMap f,
      ascii "count=" ++ decText (pkts.filter keep).length ++ ascii "\ncount_dump=" ++ decText ((pkts.filter keep).filter d).length ++ ascii "\n",
      some ((pkts.filter keep).filter d)⟩ := by
  have l1 := List.length_filter_le keep pkts
  have l2 := List.length_filter_le d (pkts.filter keep)
  unfold dumpPcap
  dsimp only
  rw [hi]
  dsimp only
  rw [ho]
  dsimp only
  rw [hf]
  dsimp only
  rw [pcapLoop_eq (f := f) (d := d) (ps := pkts.filter keep) (fun p hp => by
    obtain ⟨h1, h2⟩ := List.mem_filter.mp hp
    exact h p h1 h2), ok_bind]
  dsimp only
  rw [fmtU_eq, fmtU_eq, Nat.mod_eq_of_lt (by omega), Nat.mod_eq_of_lt (by omega),
    show ascii "\ncount_dump=" = [10] ++ ascii "count_dump=" by decide, show ascii "\n" = [10] by decide]
  simp only [List.append_assoc]

/-- **C90.**  The program ends with status 0 only if it has read the whole input; and what it does before is to say why. -/
theorem C90_status {pc : Pcap} {argv : List (List UInt8)} {r : DumpResult} (h : dumpPcap pc argv = ok r) :
    (r.status = 0 ↔ ∃ argv0 inFile outFile bpf pkts keep, argv = [argv0, inFile, outFile, bpf] ∧ pc.input inFile = .ok pkts ∧
      pc.output outFile = none ∧ pc.filter bpf = .ok keep) ∧
    (r.status ≠ 0 → r.status = 1 ∧ r.out = [] ∧ (r.dumped = none ∨ r.dumped = some [])) := by
  unfold dumpPcap at h
  split at h
  · rename_i a i o b
    split at h
    · rename_i e he
      cases h
      refine ⟨⟨fun h => by simp at h, ?_⟩, fun _ => ⟨rfl, rfl, .inl rfl⟩⟩
      rintro ⟨_, _, _, _, _, _, h, h', _⟩
      cases h
      rw [he] at h'
      cases h'
    · rename_i pkts he
      split at h
      · rename_i e ho
        cases h
        refine ⟨⟨fun h => by simp at h, ?_⟩, fun _ => ⟨rfl, rfl, .inl rfl⟩⟩
        rintro ⟨_, _, _, _, _, _, h, _, h', _⟩
        cases h
        rw [ho] at h'
        cases h'
      · rename_i ho
        split at h
        · rename_i e hf
          cases h
          refine ⟨⟨fun h => by simp at h, ?_⟩, fun _ => ⟨rfl, rfl, .inr rfl⟩⟩
          rintro ⟨_, _, _, _, _, _, h, _, _, h'⟩
          cases h
          rw [hf] at h'
          cases h'
        · rename_i f hf
          rw [bind_eq_ok] at h
          obtain ⟨q, -, h⟩ := h
          cases h
          exact ⟨⟨fun _ => ⟨_, _, _, _, _, _, rfl, he, ho, hf⟩, fun _ => rfl⟩, fun h => absurd rfl h⟩
  · rename_i hne
    cases h
    refine ⟨⟨fun h => by simp at h, ?_⟩, fun _ => ⟨rfl, rfl, .inl rfl⟩⟩
    rintro ⟨a, i, o, b, _, _, h, _⟩
    cases h
    exact (hne _ _ _ rfl).elim
  · cases h

/-- The hypotheses are met: two packets that are too short to be Ethernet frames, one of which the filter lets through. -/
example : dumpPcap ⟨fun _ => .ok [[1, 2, 3], [4]], fun _ => none, fun _ => .ok fun p => p.length > 1⟩ [[], [], [], []] =
    ok ⟨0, [], ascii "count=1\ncount_dump=0\n", some []⟩ := by decide +kernel

end Wdns
