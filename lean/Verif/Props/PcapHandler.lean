import Verif.Props.Pcap
import Verif.Props.MessageText

/-!
# C90: what the capture reader prints and dumps
-/

namespace Wdns
open Outcome Spec

theorem pcapHandler_window {pkt : List UInt8} {p len : Nat} (h : pcapWindow pkt = ok (some (p, len))) :
    pcapHandler pkt = (loaded (parseMessage (pkt.drop p) len) >>= fun l =>
      match l with
      | some m => messageToStr m >>= fun s => ok (s, false)
      | none => ok ([], true)) := by
  unfold pcapHandler
  rw [h, ok_bind]
  dsimp only
  congr 1

/-- An IPv4/UDP frame whose captured payload is a header and records (RFC 1035 4.1): the handler prints the message, that is the header lines, the EDNS
lines and one line for each record in its section, and does not write the frame to the dump file.  Partial: no SVCB/HTTPS record of the payload may have a
SvcParam with a length field of 65532 or more. -/
theorem C90_prints_partial (eth ip udp payload pad : List UInt8) (cap : Nat) (q : List UInt8)
    (he : eth.length = 12) (h20 : 20 ≤ ip.length) (hi : ipHdr (eth ++ [8, 0] ++ ip) = ip.length)
    (ht : ipTotal (eth ++ [8, 0] ++ ip) = ip.length + udp.length + payload.length) (hu : udp.length = 8)
    (hcap : 14 + ip.length + 8 + 12 ≤ cap) (hp : 12 ≤ payload.length) (hbig : cap < 2 ^ 32)
    (hq : q = payload.take (cap - (14 + ip.length + 8))) (all : List (Nat × RR)) (h : MsgRecs q all)
    (hl : ∀ r ∈ all, ∀ d, r.2.rdata = some d → d.data.length < 65536) (hno : SvcNoLong q) :
    ∃ m s0 s1 s2 s3 e t0 t1 t2 t3, MessageOf q all m ∧ m.sections = [s0, s1, s2, s3] ∧ EdnsLines m.edns e ∧
      LinesOf 0 s0.rrs t0 ∧ LinesOf 1 s1.rrs t1 ∧ LinesOf 2 s2.rrs t2 ∧ LinesOf 3 s3.rrs t3 ∧
      pcapHandler ((eth ++ [8, 0] ++ ip ++ udp ++ payload ++ pad).take cap) =
        ok (headerText m s0.rrs.length s1.rrs.length s2.rrs.length s3.rrs.length ++ e ++
        ascii "\n;; QUESTION SECTION:\n" ++ t0 ++ ascii "\n;; ANSWER SECTION:\n" ++ t1 ++
        ascii "\n;; AUTHORITY SECTION:\n" ++ t2 ++ ascii "\n;; ADDITIONAL SECTION:\n" ++ t3, false) := by
  obtain ⟨p, len, w1, w2, w3⟩ := C90_payload eth ip udp payload pad cap he h20 hi ht hu hcap hp hbig
  rw [← hq] at w2 w3
  subst w3
  generalize (eth ++ [8, 0] ++ ip ++ udp ++ payload ++ pad).take cap = pkt at w1 w2
  have h12 : 12 ≤ q.length := by rw [hq, List.length_take]; omega
  have h64 : q.length < 2 ^ 64 := by rw [hq, List.length_take]; omega
  have hlen : q.length ≤ (pkt.drop p).length := by
    have := congrArg List.length w2
    rw [List.length_take] at this
    omega
  obtain ⟨m, h1, h2⟩ := C67_parse_complete (pkt.drop p) q.length all hlen (by omega) h12 (by rw [w2]; exact h)
  rw [w2] at h2
  obtain ⟨s0, s1, s2, s3, e, t0, t1, t2, t3, g1, g2, g3, g4, g5, g6, g7⟩ :=
    C62_message_text_partial _ _ m hlen h64 (fits_of h2 hl) (by rw [w2]; exact hno) h1
  refine ⟨m, s0, s1, s2, s3, e, t0, t1, t2, t3, h2, g1, g2, g3, g4, g5, g6, ?_⟩
  rw [pcapHandler_window w1, h1]
  simp only [loaded, ok_bind, g7]

/-- Every capture of that kind that is rejected by the parser is dumped, with nothing printed; one that is accepted is printed and not dumped.  One octet
behind the payload must have been captured, because the parser may read it (C35). -/
theorem C90_dumps_partial (pkt : List UInt8) (p len : Nat) (hw : pcapWindow pkt = ok (some (p, len))) (hin : p + len < pkt.length) (h64 : len < 2 ^ 64)
    (hl : ∀ m, parseMessage (pkt.drop p) len = ok m → m.Fits)
    (hno : SvcNoLong ((pkt.drop p).take len)) :
    ∃ out dumped, pcapHandler pkt = ok (out, dumped) ∧ (dumped = true → out = []) ∧
      (dumped = false ↔ ∃ m, parseMessage ((pkt.drop p).take (len + 1)) len = ok m) := by
  have hm : len < (pkt.drop p).length := by rw [List.length_drop]; omega
  obtain ⟨hr, hloc⟩ := C35_safe_partial (pkt.drop p) len hm (by omega) hno
  rw [pcapHandler_window hw, hloc ((pkt.drop p).take (len + 1)) (by rw [List.take_take]; simp)]
  cases hp : parseMessage (pkt.drop p) len with
  | ok m =>
    obtain ⟨s0, s1, s2, s3, e, t0, t1, t2, t3, -, -, -, -, -, -, g7⟩ := C62_message_text_partial _ _ m (by omega) h64 (hl m hp) hno hp
    obtain ⟨txt, htxt⟩ : ∃ t, messageToStr m = ok t := ⟨_, g7⟩
    exact ⟨txt, false, by simp only [loaded, ok_bind, htxt], by simp, by simp⟩
  | err r => exact ⟨[], true, by simp [loaded], by simp, by simp⟩
  | _ => rw [hp] at hr; simp at hr

/-- Every frame that is passed over (C90_skipped) leaves no trace. -/
theorem C90_silent {pkt : List UInt8} (h : pcapWindow pkt = ok none) : pcapHandler pkt = ok ([], false) := by
  unfold pcapHandler
  rw [h, ok_bind]

/-- A frame around `sampleMsg`, which is printed, and one around a message with a broken record, which is dumped. -/
example : pcapHandler (List.replicate 12 7 ++ [8, 0] ++ ([0x45, 0, 0, UInt8.ofNat (28 + sampleMsg.length)] ++ List.replicate 16 1) ++ List.replicate 8 2 ++ sampleMsg ++ [9, 9]) =
    (messageToStr <$> parseMessage sampleMsg sampleMsg.length >>= fun s => s >>= fun t => ok (t, false)) ∧
    pcapHandler (List.replicate 12 7 ++ [8, 0] ++ ([0x45, 0, 0, 41] ++ List.replicate 16 1) ++ List.replicate 8 2 ++
      [0, 0, 0, 0, 0, 1, 0, 0, 0, 0, 0, 0, 3] ++ [9, 9]) = ok ([], true) := by decide +kernel

end Wdns
