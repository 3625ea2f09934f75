import Verif.Props.MessageText
import Verif.Props.Pipeline
import Verif.Props.HexDecode

/-!
# C91, C92: the programs that dump a file and that serialize and deserialize RRsets (examples/)
-/

namespace Wdns
open Outcome Spec

/-! ## C91 -/

theorem dumpFile_eq {file : List UInt8} (hl : file.length < 4096) :
    dumpFile file = (loaded (parseMessage (file ++ List.replicate (4096 - file.length) 0) file.length) >>= fun l =>
      match l with
      | some m => messageToStr m >>= fun s => ok (0, s ++ [10])
      | none => ok (1, [])) := by
  unfold dumpFile
  dsimp only
  rw [if_neg (fun h => h hl), List.take_of_length_le (by omega)]
  generalize loaded (parseMessage (file ++ List.replicate (4096 - file.length) 0) file.length) = x
  cases x with
  | ok l => simp only [ok_bind]; cases l <;> rfl
  | _ => simp only [err_bind, ub_bind, hang_bind, abort_bind]

theorem dump_take {file : List UInt8} (k : Nat) : (file ++ List.replicate k 0).take file.length = file := by simp

/-- A file of 4096 octets or more is refused, and nothing is printed. -/
theorem C91_large (file : List UInt8) (h : 4096 ≤ file.length) : dumpFile file = ok (1, []) := by
  unfold dumpFile
  dsimp only
  rw [if_pos (by omega)]

/-- A case of `C91_large`. -/
example : dumpFile (List.replicate 5000 0) = ok (1, []) := C91_large _ (by rw [List.length_replicate]; decide)

/-- A smaller file that is a header and records (RFC 1035 4.1) is accepted, and the program prints the header lines, the EDNS lines, and one line for each record
in its section, and a newline.  Partial: no SVCB/HTTPS record of the file may have a SvcParam with a length field of 65532 or more. -/
theorem C91_prints_partial (file : List UInt8) (all : List (Nat × RR)) (hl : file.length < 4096) (h12 : 12 ≤ file.length) (h : MsgRecs file all)
    (hno : SvcNoLong file) :
    ∃ m s0 s1 s2 s3 e t0 t1 t2 t3, MessageOf file all m ∧ m.sections = [s0, s1, s2, s3] ∧ EdnsLines m.edns e ∧
      LinesOf 0 s0.rrs t0 ∧ LinesOf 1 s1.rrs t1 ∧ LinesOf 2 s2.rrs t2 ∧ LinesOf 3 s3.rrs t3 ∧
      dumpFile file = ok (0, headerText m s0.rrs.length s1.rrs.length s2.rrs.length s3.rrs.length ++ e ++
        ascii "\n;; QUESTION SECTION:\n" ++ t0 ++ ascii "\n;; ANSWER SECTION:\n" ++ t1 ++
        ascii "\n;; AUTHORITY SECTION:\n" ++ t2 ++ ascii "\n;; ADDITIONAL SECTION:\n" ++ t3 ++ [10]) := by
  have ht := dump_take (file := file) (4096 - file.length)
  obtain ⟨m, h1, h2⟩ := C67_parse_complete (file ++ List.replicate (4096 - file.length) 0) file.length all (by simp) (by omega) h12 (by rw [ht]; exact h)
  rw [ht] at h2
  obtain ⟨s0, s1, s2, s3, e, t0, t1, t2, t3, g1, g2, g3, g4, g5, g6, g7⟩ :=
    C62_message_text_partial _ _ m (by simp) (by omega) (C62_short_partial _ _ m (by simp) (by omega) (by rw [ht]; exact hno) h1)
      (by rw [ht]; exact hno) h1
  refine ⟨m, s0, s1, s2, s3, e, t0, t1, t2, t3, h2, g1, g2, g3, g4, g5, g6, ?_⟩
  rw [dumpFile_eq hl, h1]
  simp only [loaded, ok_bind, g7]

/-- On every file with no such record the program ends, with exit code 0 or 1, and reads and writes within its memory; it exits with 0 exactly if the file is smaller than 4096
octets and the parser accepts it with one zero octet behind it, and prints nothing otherwise. -/
theorem C91_exit_partial (file : List UInt8) (hno : SvcNoLong file) :
    ∃ code out, dumpFile file = ok (code, out) ∧ (code = 0 ∨ code = 1 ∧ out = []) ∧
      (code = 0 ↔ file.length < 4096 ∧ ∃ m, parseMessage (file ++ [0]) file.length = ok m) := by
  by_cases hl : file.length < 4096
  · have ht := dump_take (file := file) (4096 - file.length)
    obtain ⟨hr, hloc⟩ := C35_safe_partial (file ++ List.replicate (4096 - file.length) 0) file.length (by simp; omega) (by omega) (by rw [ht]; exact hno)
    have he := hloc (file ++ [0]) (by
      rw [List.take_length_add_append, List.take_length_add_append, show 4096 - file.length = (4095 - file.length) + 1 by omega, List.replicate_succ]
      simp)
    rw [dumpFile_eq hl, he]
    cases hp : parseMessage (file ++ List.replicate (4096 - file.length) 0) file.length with
    | ok m =>
      obtain ⟨s0, s1, s2, s3, e, t0, t1, t2, t3, -, -, -, -, -, -, g7⟩ :=
        C62_message_text_partial _ _ m (by simp) (by omega) (C62_short_partial _ _ m (by simp) (by omega) (by rw [ht]; exact hno) hp) (by rw [ht]; exact hno) hp
      obtain ⟨txt, htxt⟩ : ∃ t, messageToStr m = ok t := ⟨_, g7⟩
      exact ⟨0, txt ++ [10], by simp only [loaded, ok_bind, htxt], by simp, by simp [hl]⟩
    | err r =>
      exact ⟨1, [], by simp [loaded], by simp, by simp⟩
    | _ => rw [hp] at hr; simp at hr
  · exact ⟨1, [], C91_large file (by omega), by simp, by simp [hl]⟩

example : dumpFile sampleMsg = ok (0, ascii (";; ->>HEADER<<- opcode: QUERY, rcode: NOERROR, id: 4660\n" ++
    ";; flags: qr rd ra; QUERY: 1, ANSWER: 1, AUTHORITY: 0, ADDITIONAL: 0\n" ++
    "\n;; OPT PSEUDOSECTION:\n; EDNS: version: 0, flags: do; udp: 4096" ++
    "\n;; QUESTION SECTION:\n;a. IN A\n" ++
    "\n;; ANSWER SECTION:\na. 60 IN A 1.2.3.4\n" ++ "\n;; AUTHORITY SECTION:\n" ++ "\n;; ADDITIONAL SECTION:\n\n")) := by
  decide +kernel

/-- The octet that the parser reads behind the packet is there, and zero: this file is accepted although its last name lacks its last octet. -/
example : ∃ out, dumpFile overreadMsg = ok (0, out) := by
  obtain ⟨code, out, h1, -, h3⟩ := C91_exit_partial overreadMsg (svcNoLong_of_types (by decide +kernel))
  have := h3.mpr ⟨by decide, C35_safe_violated.2.1⟩
  subst this
  exact ⟨out, h1⟩

/-- A file of 4000 octets with an HTTPS record whose first SvcParam has the key 1 (alpn) and the length 65535. -/
def alpnFile : List UInt8 :=
  [0, 1, 0x80, 0, 0, 0, 0, 1, 0, 0, 0, 0, 0, 0, 65, 0, 1, 0, 0, 0, 0, 0x0f, 0x89, 0, 1, 0, 0, 1, 0xff, 0xff] ++ List.replicate 3970 0xff

/-- **C91 is violated** without that restriction: on this file of 30 octets the program does not end, and on `alpnFile` it reads behind its array of 4096 octets. -/
theorem C91_violated : dumpFile hangMsg = hang ∧ dumpFile alpnFile = ub := by
  constructor
  · decide +kernel
  · decide +kernel

/-! ## C92 -/

/-- The driver on the hexadecimal text of `bs`. -/
theorem driver_hex {σ : Type} (load : List UInt8 → Outcome (Option σ)) (test : σ → Outcome (List UInt8)) (u : Bool) (bs : List UInt8) (h : Heap)
    (hb : bs ≠ []) (h64 : 2 * bs.length < 2 ^ 64) {x : σ} {out : List UInt8} (hl : load bs = ok (some x)) (ht : test x = ok out) :
    ∃ h', hexDriver load test [bs.flatMap (byteToHex · u)] h = ok ((0, out), h') ∧ h'.live = h.live := by
  obtain ⟨h1, _⟩ := hexDecode_flatMap u bs
  have hlen := hexDecode_length _ _ h1
  have hne : bs.flatMap (byteToHex · u) ≠ [] := by
    intro he
    rw [he] at hlen
    exact hb (List.length_eq_zero_iff.mp (by simp at hlen; omega))
  have hd := (C89_exact _ bs h.next h ⟨h.next + 1, h.next :: h.live⟩ (by omega)).mpr ⟨hne, h1, rfl, rfl, rfl⟩
  refine ⟨⟨h.next + 1, h.live⟩, ?_, rfl⟩
  simp only [hexDriver, hd, ok_bind, hl, ht, Heap.free, List.mem_cons, true_or, if_true]
  simp

theorem serializeAll_eq (le : Bool) : ∀ (ss : List RRset) (out : List UInt8), (∀ s ∈ ss, s.Valid) →
    serializeAll le ss out = ok (out ++ (ss.map (ser le)).flatMap printData)
  | [], out, _ => by simp [serializeAll]
  | s :: ss, out, h => by
    rw [serializeAll, serializeRrset_spec (h s (by simp)) (Nat.le_refl _), ok_bind, serializeAll_eq le ss _ fun s hs => h s (by simp [hs])]
    simp

theorem ser_bound {le : Bool} {s : RRset} (hv : s.Valid) (hf : s.Fits) : ser le s ≠ [] ∧ (ser le s).length < 2 ^ 40 := by
  have h1 := serializeSize_spec hv le
  constructor
  · simp [ser, serHead]
  · have key : ∀ rs : List CRdata, (∀ r ∈ rs, r.Valid ∧ r.len < 2 ^ 16) → (rs.flatMap (serRdata le)).length ≤ 65538 * rs.length := by
      intro rs
      induction rs with
      | nil => simp
      | cons r rs ih =>
        intro h
        have h2 := ih fun r hr => h r (by simp [hr])
        have h3 := h r (by simp)
        simp only [List.flatMap_cons, List.length_append, List.length_cons, serRdata, enc16_length, CRdata.bytes_length h3.1]
        omega
    have h2 := key s.rdatas fun r hr => ⟨hv.2 r hr, hf.2.2.2.2.2 r hr⟩
    have h3 := hf.2.2.2.1
    have h4 := hf.2.2.2.2.1
    simp only [ser, serHead, List.length_append, List.length_singleton, enc16_length, enc32_length, CName.bytes_length hv.1]
    omega

theorem trim_eq {s : RRset} (hn : s.name.len = s.name.data.length) (hr : ∀ d ∈ s.rdatas, d.len = d.data.length) : s.trim = s := by
  obtain ⟨ttl, ty, cls, ⟨nl, nd⟩, rds⟩ := s
  simp only at hn hr
  simp only [RRset.trim, CName.bytes, hn, List.take_length]
  congr 1
  conv => rhs; rw [← List.map_id rds]
  refine List.map_congr_left fun r h => ?_
  obtain ⟨l, d⟩ := r
  have := hr _ h
  simp only at this
  simp [CRdata.bytes, this]

/-- **C92, partial.** For a packet the parser accepts, `wdns-test-serialize-rrset` (given the packet in hexadecimal) exits with 0 and prints one line for each RRset of the answer, authority and additional sections, in order;
given such a line, `wdns-test-deserialize-rrset` exits with 0 and prints one line for each rdata of this RRset, with its owner name, TTL, class and type; no block is
left behind.  Partial: packets without rdata of 65536 octets or more and without a SvcParam with a length field of 65532 or more, as in C62. -/
theorem C92_serialize_deserialize_partial (le : Bool) (msg : List UInt8) (m : Message) (h64 : msg.length < 2 ^ 63) (hlen : m.Fits) (hno : SvcNoLong msg)
    (h : parseMessage msg msg.length = ok m) (u : Bool) :
    ∃ (a1 a2 a3 : RRsetArray) (lines : List (List UInt8)), m.sections[1]? = some a1 ∧ m.sections[2]? = some a2 ∧ m.sections[3]? = some a3 ∧
      lines.length = (a1.rrsets ++ a2.rrsets ++ a3.rrsets).length ∧
      (∀ hp, ∃ hp', hexDriver loadMessage (testSerialize le) [msg.flatMap (byteToHex · u)] hp = ok ((0, lines.flatMap (· ++ [10])), hp') ∧ hp'.live = hp.live) ∧
      ∀ (i : Nat) s l, (a1.rrsets ++ a2.rrsets ++ a3.rrsets)[i]? = some s → lines[i]? = some l →
        ∃ t, LinesOf 1 (s.rdatas.map fun d => ⟨s.rrttl, s.rrtype, s.rrclass, s.name, some d⟩) t ∧
          ∀ hp, ∃ hp', hexDriver (loadRrset le) testPrintRrset [l] hp = ok ((0, t), hp') ∧ hp'.live = hp.live := by
  have hno' : SvcNoLong (msg.take msg.length) := by rw [List.take_length]; exact hno
  obtain ⟨h12, all, _, hmo, _⟩ := parseMessage_ok (Nat.le_refl _) h
  obtain ⟨a0, a1, a2, a3, hsec⟩ := four_sections hmo.2.2.2.1
  have e1 : m.sections[1]? = some a1 := by simp [hsec]
  have e2 : m.sections[2]? = some a2 := by simp [hsec]
  have e3 : m.sections[3]? = some a3 := by simp [hsec]
  have hval : ∀ a ∈ m.sections, ∀ s ∈ a.rrsets, s.Valid ∧ s.Fits := fun a ha s hs =>
    C78_rrsets_valid msg msg.length m (Nat.le_refl _) h a ha s hs
  have hv : ∀ s ∈ a1.rrsets ++ a2.rrsets ++ a3.rrsets, s.Valid ∧ s.Fits := by
    intro s hs
    rcases List.mem_append.mp hs with hs | hs
    · rcases List.mem_append.mp hs with hs | hs
      · exact hval a1 (by simp [hsec]) s hs
      · exact hval a2 (by simp [hsec]) s hs
    · exact hval a3 (by simp [hsec]) s hs
  have hok : ∀ s ∈ a1.rrsets ++ a2.rrsets ++ a3.rrsets, (∃ n, WF n ∧ s.name = ⟨(wire n).length, wire n⟩) ∧
      ∀ d ∈ s.rdatas, RROk 1 ⟨s.rrttl, s.rrtype, s.rrclass, s.name, some d⟩ := by
    have one : ∀ {i : Nat} {rr : RR}, i ≠ 0 → RROk i rr → RROk 1 rr := fun hi h => ⟨h.name, h.ttl, fun h0 => absurd h0 (by omega), fun _ => h.rdata hi⟩
    intro s hs
    rcases List.mem_append.mp hs with hs | hs
    · rcases List.mem_append.mp hs with hs | hs
      · exact rrset_ok (Nat.le_refl _) (by omega) hlen hno' h e1 (by omega) hs
      · obtain ⟨g1, g2⟩ := rrset_ok (Nat.le_refl _) (by omega) hlen hno' h e2 (by omega) hs
        exact ⟨g1, fun d hd => one (by omega) (g2 d hd)⟩
    · obtain ⟨g1, g2⟩ := rrset_ok (Nat.le_refl _) (by omega) hlen hno' h e3 (by omega) hs
      exact ⟨g1, fun d hd => one (by omega) (g2 d hd)⟩
  refine ⟨a1, a2, a3, (a1.rrsets ++ a2.rrsets ++ a3.rrsets).map fun s => (ser le s).flatMap (byteToHex · false), e1, e2, e3, by simp, ?_, ?_⟩
  · intro hp
    apply driver_hex (x := m) _ _ _ _ _ (by intro he; rw [he] at h12; simp at h12) (by omega)
    · simp only [loadMessage, h, loaded]
    · unfold testSerialize
      simp only [serializeSections, e1, e2, e3, ok_bind]
      rw [serializeAll_eq le _ _ fun s hs => (hv s (by simp [hs])).1, ok_bind]
      rw [serializeAll_eq le _ _ fun s hs => (hv s (by simp [hs])).1, ok_bind]
      rw [serializeAll_eq le _ _ fun s hs => (hv s (by simp [hs])).1, ok_bind]
      simp only [List.nil_append, List.flatMap_map, List.flatMap_append]
      rfl
  · intro i s l hs hl
    have hmem : s ∈ a1.rrsets ++ a2.rrsets ++ a3.rrsets := List.mem_of_getElem? hs
    rw [List.getElem?_map, hs, Option.map_some, Option.some.injEq] at hl
    subst hl
    obtain ⟨⟨n, hn, hname⟩, hrd⟩ := hok s hmem
    obtain ⟨v, f⟩ := hv s hmem
    obtain ⟨t, h4, h5, h6⟩ := rrsetLoop_render s s.rdatas [] Clean.nil hrd
    refine ⟨t, h4, fun hp => ?_⟩
    have htrim : s.trim = s := by
      apply trim_eq
      · rw [hname]
      · intro d hd
        obtain ⟨x, hx, _⟩ := (hrd d hd).rdata (by omega)
        simp only [Option.some.injEq] at hx
        subst hx; rfl
    obtain ⟨b1, b2⟩ := ser_bound (le := le) v f
    apply driver_hex (x := s) _ _ _ _ _ b1 (by omega)
    · simp only [loadRrset]
      rw [deserializeRrset_complete (Nat.le_refl _) v f (List.prefix_refl _) (Nat.le_refl _), htrim, loaded]
    · unfold testPrintRrset rrsetToStr rrsetToUbuf
      rw [if_neg (by omega), h6, ok_bind, List.nil_append, cstrOf_of h5]

/-- The answer of the sample message through both programs. -/
example : ∃ hp', hexDriver (loadRrset true) testPrintRrset [ascii "03016100010001003c00000001000400" ++ ascii "01020304"] ⟨0, []⟩ =
    ok ((0, ascii "a. 60 IN A 1.2.3.4\n"), hp') ∧
    ∃ hp'', hexDriver loadMessage (testSerialize true) [sampleMsg.flatMap (byteToHex · false)] ⟨0, []⟩ =
      ok ((0, ascii "03016100010001003c0000000100040001020304\n"), hp'') :=
  ⟨⟨1, []⟩, by decide +kernel, ⟨1, []⟩, by decide +kernel⟩

end Wdns
