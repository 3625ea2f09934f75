import Verif.Props.Tools
import Verif.Props.Downcase

/-!
# C92: the program that lower-cases an RRset (examples/wdns-test-downcase-rrset.c)
-/

namespace Wdns
open Outcome Spec

/-- `x'` is the rdata `x` with the names in it lower-cased that RFC 4034 6.2 says: all the names of a type of its list, in a class for which the type's
layout is known (`d`), none otherwise.  As far as the code goes: no label with a zero octet, and no A6 record (C59). -/
def RdataLowered (ty cls : Nat) (x x' : List UInt8) : Prop :=
  match recordDescr ty with
  | none => x' = x
  | some d => if ty ∈ canonicalTypes ∧ d.applies cls = true then ty ≠ 38 ∧ Lowered NoZero d.types x x' else x' = x

theorem lowered_conforms {P : Name → Prop} {ts : List Rdf} {w w' : List UInt8} (h : Lowered P ts w w') : Conforms ts w' ∧ w'.length = w.length := by
  induction h with
  | done => exact ⟨.done, rfl⟩
  | name h1 h2 _ _ ih =>
    rename_i t ts n rest rest' _
    refine ⟨.name h1 ⟨lowerName_ok h2.1, ?_⟩ ih.1, by simp [wire_lower_length, ih.2]⟩
    rw [wire_lower_length]; exact h2.2
  | field h1 h2 h3 _ ih =>
    rename_i t ts f rest rest' _
    have hl := ih.2
    refine ⟨.field h1 ?_ ?_ ih.1, by simp [ih.2]⟩
    · intro he
      apply h2
      have : (f ++ rest').length = 0 := by rw [he]; rfl
      apply List.length_eq_zero_iff.mp
      simp only [List.length_append] at this ⊢; omega
    · intro ht
      apply List.length_eq_zero_iff.mp
      rw [hl, h3 ht]; rfl

theorem rdataLowered_ok {ty cls : Nat} {x x' : List UInt8} (h : RdataLowered ty cls x x') (hx : RdOk ty cls x) :
    x'.length = x.length ∧ RdOk ty cls x' ∧ downcaseRdata ⟨x.length, x⟩ ty cls = ok (.success, ⟨x'.length, x'⟩) := by
  unfold RdataLowered at h
  cases hd : recordDescr ty with
  | none =>
    rw [hd] at h
    simp only at h
    subst h
    exact ⟨rfl, hx, by simp [downcaseRdata, hd]⟩
  | some d =>
    rw [hd] at h
    simp only at h
    by_cases hc : ty ∈ canonicalTypes ∧ d.applies cls = true
    · rw [if_pos hc] at h
      obtain ⟨h1, h2⟩ := lowered_conforms h.2
      refine ⟨h2, ⟨by rw [h2]; exact hx.1, ?_⟩, ?_⟩
      · intro d' hd' _
        rw [hd, Option.some.injEq] at hd'
        subst hd'; exact h1
      · rw [C59_lowers_names_partial _ _ _ _ _ hc.1 h.1 hd hc.2 rfl h.2, h2]
    · rw [if_neg hc] at h
      subst h
      refine ⟨rfl, hx, ?_⟩
      simp only [downcaseRdata, hd, mem_downcaseTypes]
      by_cases h1 : ty ∈ canonicalTypes
      · have h2 : ¬ d.applies cls = true := fun h2 => hc ⟨h1, h2⟩
        simp [h1, h2]
      · simp [h1]

theorem rdatas_lowered {ty cls : Nat} : ∀ (ds : List CRdata) (ds' : List (List UInt8)),
    List.Forall₂ (fun d x' => RdataLowered ty cls d.data x') ds ds' →
    (∀ d ∈ ds, ∃ x, d = ⟨x.length, x⟩ ∧ RdOk ty cls x) →
    downcaseRdatas ty cls ds = ok (.success, ds'.map fun x => ⟨x.length, x⟩) ∧ ∀ x ∈ ds', RdOk ty cls x
  | _, _, .nil, _ => ⟨rfl, by simp⟩
  | d :: ds, x' :: ds', .cons h hs, hok => by
    obtain ⟨x, rfl, hx⟩ := hok d (by simp)
    obtain ⟨_, h2, h3⟩ := rdataLowered_ok h hx
    obtain ⟨h4, h5⟩ := rdatas_lowered ds ds' hs fun d hd => hok d (by simp [hd])
    constructor
    · rw [downcaseRdatas, h3, ok_bind]
      dsimp only
      rw [if_neg (by simp), h4, ok_bind]
      rfl
    · intro y hy
      rcases List.mem_cons.mp hy with rfl | hy
      · exact h2
      · exact h5 y hy

/-- **C92 (lower-casing), partial.** Take any RRset of the answer, authority or additional section of a packet the parser accepts, with owner name `n`, and
let `xs` be its rdatas with their names lower-cased (`RdataLowered`).  Given a serialization of the RRset in hexadecimal,
`wdns-test-downcase-rrset` exits with 0 and prints one line for each rdata, in order, showing the lower-cased owner name, the TTL, class and type of the
RRset and the lower-cased rdata; no block is left behind.  Partial: packets as in C62; rdata the library can lower-case (no zero octet in a label, not A6), as in C59. -/
theorem C92_downcase_partial (le u : Bool) (msg : List UInt8) (m : Message) (h64 : msg.length < 2 ^ 64) (hlen : m.Fits) (hno : SvcNoLong msg)
    (h : parseMessage msg msg.length = ok m) (i : Nat) (hi : i ≠ 0) (a : RRsetArray) (ha : m.sections[i]? = some a) (s : RRset) (hs : s ∈ a.rrsets)
    (xs : List (List UInt8)) (hx : List.Forall₂ (fun d x' => RdataLowered s.rrtype s.rrclass d.data x') s.rdatas xs) :
    ∃ n t buf, WF n ∧ s.name = ⟨(wire n).length, wire n⟩ ∧ serializeRrset le (serializeSize s) s = ok buf ∧
      LinesOf 1 (xs.map fun x => ⟨s.rrttl, s.rrtype, s.rrclass, ⟨(wire n).length, wire (lowerName n)⟩, some ⟨x.length, x⟩⟩) t ∧
      ∀ hp, ∃ hp', hexDriver (loadRrset le) testDowncase [buf.flatMap (byteToHex · u)] hp = ok ((0, t), hp') ∧ hp'.live = hp.live := by
  have hno' : SvcNoLong (msg.take msg.length) := by rw [List.take_length]; exact hno
  obtain ⟨v, f⟩ := C78_rrsets_valid msg msg.length m (Nat.le_refl _) h a (List.mem_of_getElem? ha) s hs
  obtain ⟨⟨n, hn, hname⟩, hrd⟩ := rrset_ok (Nat.le_refl _) h64 hlen hno' h ha hi hs
  have hds : ∀ d ∈ s.rdatas, ∃ x, d = ⟨x.length, x⟩ ∧ RdOk s.rrtype s.rrclass x := by
    intro d hd
    obtain ⟨x, hx, hy⟩ := (hrd d hd).rdata hi
    exact ⟨x, Option.some.inj hx, hy⟩
  obtain ⟨h1, h2⟩ := rdatas_lowered _ _ hx hds
  have htrim : s.trim = s := by
    apply trim_eq
    · rw [hname]
    · intro d hd
      obtain ⟨x, rfl, _⟩ := hds d hd; rfl
  have hwf : WF (lowerName n) := ⟨lowerName_ok hn.1, by rw [wire_lower_length]; exact hn.2⟩
  let s' : RRset := ⟨s.rrttl, s.rrtype, s.rrclass, ⟨(wire n).length, wire (lowerName n)⟩, xs.map fun x => ⟨x.length, x⟩⟩
  have hdown : downcaseRrset s = ok (.success, s') := by
    have hb := downcaseBytes_spec (wire n).length (wire n) (Nat.le_refl _)
    have hl := wire_lower n hn.1
    simp only [downcaseRrset, downcaseName, hb, ok_bind, h1, hname, List.take_length, List.drop_length, List.append_nil, hl]
    rfl
  have hds' : ∀ d ∈ s'.rdatas, RROk 1 ⟨s'.rrttl, s'.rrtype, s'.rrclass, s'.name, some d⟩ := by
    intro d hd
    obtain ⟨x, hx, rfl⟩ := List.mem_map.mp hd
    refine ⟨⟨lowerName n, hwf, ?_⟩, f.1, fun h0 => absurd h0 (by omega), fun _ => ⟨x, rfl, h2 x hx⟩⟩
    rw [wire_lower_length]
  obtain ⟨t, h4, h5, h6⟩ := rrsetLoop_render (sec := 1) s' s'.rdatas [] Clean.nil hds'
  obtain ⟨b1, b2⟩ := ser_bound (le := le) v f
  refine ⟨n, t, ser le s, hn, hname, serializeRrset_spec v (Nat.le_refl _), ?_, fun hp => ?_⟩
  · rw [List.map_map] at h4; exact h4
  apply driver_hex (x := s) _ _ _ _ _ b1 (by omega)
  · simp only [loadRrset]
    rw [deserializeRrset_complete (Nat.le_refl _) v f (List.prefix_refl _) (Nat.le_refl _), htrim, loaded]
  · unfold testDowncase
    rw [hdown, ok_bind]
    dsimp only
    rw [if_neg (by simp)]
    unfold rrsetToStr rrsetToUbuf
    rw [if_neg (by omega), h6, ok_bind, List.nil_append, cstrOf_of h5]

/-- **C92, what fails.** An A6 record with a prefix of 128 bits, as the library parses and prints it: the program prints nothing, and still exits with 0 (the driver does not look at what
`testfunc` returns). -/
theorem C92_downcase_violated : ∃ hp', hexDriver (loadRrset true) testDowncase [ascii "030161002600010" ++ ascii "03c0000000100040080016200"] ⟨0, []⟩ =
    ok ((0, []), hp') ∧ (∃ hp'', hexDriver (loadRrset true) testPrintRrset [ascii "030161002600010" ++ ascii "03c0000000100040080016200"] ⟨0, []⟩ =
    ok ((0, ascii "a. 60 IN A6 128 b.\n"), hp'')) :=
  ⟨⟨1, []⟩, by decide +kernel, ⟨1, []⟩, by decide +kernel⟩

/-- A CNAME through the program. -/
example : ∃ hp', hexDriver (loadRrset true) testDowncase [ascii "03014100050001003c0000000100030001420" ++ ascii "0"] ⟨0, []⟩ =
    ok ((0, ascii "a. 60 IN CNAME b.\n"), hp') := ⟨⟨1, []⟩, by decide +kernel⟩

/-- Its hypothesis on the rdata. -/
example : List.Forall₂ (fun (d : CRdata) x' => RdataLowered 5 1 d.data x') [⟨3, [1, 66, 0]⟩] [[1, 98, 0]] :=
  .cons (show (5 : Nat) ≠ 38 ∧ Lowered NoZero [.name] [1, 66, 0] [1, 98, 0] from ⟨by decide, .name (n := [[66]]) (rest := []) (rest' := []) trivial (by decide) (by intro l hl; simp at hl; subst hl; decide) .done⟩) .nil

end Wdns
