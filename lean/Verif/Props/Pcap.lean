import Verif.Model.Tools

/-!
# C90: what `wdns-dump-pcap` hands to the parser (examples/wdns-dump-pcap.c)
-/

namespace Wdns
open Outcome

namespace Spec

/-- A captured Ethernet frame of at least 14 octets whose type is IPv4. -/
def IpFrame (pkt : List UInt8) : Prop := 14 ≤ pkt.length ∧ pkt[12]? = some 8 ∧ pkt[13]? = some 0

/-- The length of the IP header according to its first octet, in octets. -/
def ipHdr (pkt : List UInt8) : Nat := (pkt.getD 14 0).toNat % 16 * 4

/-- The total length of the IP datagram according to its header. -/
def ipTotal (pkt : List UInt8) : Nat := (pkt.getD 16 0).toNat * 256 + (pkt.getD 17 0).toNat

end Spec

open Spec

theorem and15 (n : Nat) : n &&& 0x0f = n % 16 := Nat.and_two_pow_sub_one_eq_mod n 4

theorem be16_ip (a b : UInt8) : be16 a b = 0x0800 ↔ a = 8 ∧ b = 0 := by
  have ha := a.toNat_lt
  have hb := b.toNat_lt
  constructor
  · intro h
    simp only [be16] at h
    constructor
    · apply UInt8.toNat.inj
      show a.toNat = 8
      omega
    · apply UInt8.toNat.inj
      show b.toNat = 0
      omega
  · rintro ⟨rfl, rfl⟩
    decide

theorem rd_getD {mem : List UInt8} {i : Nat} (h : i < mem.length) : rd mem i = ok (mem.getD i 0) := by
  rw [rd_of_lt h, List.getD_eq_getElem?_getD, List.getElem?_eq_getElem h]; rfl

theorem sub32_eq {a b : Nat} (h : b ≤ a) (ha : a < 2 ^ 32) : sub32 a b = a - b := by unfold sub32; omega

theorem sub32_wrap {a b : Nat} (h : a < b) (hb : b ≤ 2 ^ 32) : sub32 a b = 2 ^ 32 - (b - a) := by unfold sub32; omega

attribute [local irreducible] sub32

/-- The handler's computation, evaluated. -/
theorem pcapWindow_eq (pkt : List UInt8) : pcapWindow pkt =
    if ¬ (14 ≤ pkt.length ∧ pkt[12]? = some 8 ∧ pkt[13]? = some 0) then ok none
    else if pkt.length = 14 then ub
    else if pkt.length - 14 < ipHdr pkt then ok none
    else if pkt.length < 18 then ub
    else if sub32 (min (ipTotal pkt) (pkt.length - 14)) (ipHdr pkt) < 20 then ok none
    else ok (some (22 + ipHdr pkt, sub32 (min (ipTotal pkt) (pkt.length - 14)) (ipHdr pkt) - 8)) := by
  unfold pcapWindow
  dsimp only
  by_cases h0 : pkt.length < 14
  · rw [if_pos h0, if_pos (by omega)]
  rw [if_neg h0, rd_getD (by omega), rd_getD (i := 12 + 1) (by omega)]
  simp only [ok_bind]
  have e12 : pkt[12]? = some (pkt.getD 12 0) := by rw [List.getD_eq_getElem?_getD, List.getElem?_eq_getElem (by omega)]; rfl
  have e13 : pkt[13]? = some (pkt.getD 13 0) := by rw [List.getD_eq_getElem?_getD, List.getElem?_eq_getElem (by omega)]; rfl
  by_cases h1 : be16 (pkt.getD 12 0) (pkt.getD (12 + 1) 0) = 0x0800
  · have h1' := (be16_ip _ _).mp h1
    rw [if_neg (fun hn => hn h1), if_neg (fun hn => hn ⟨by omega, by rw [e12, h1'.1], by rw [e13, h1'.2]⟩)]
    by_cases h2 : pkt.length = 14
    · rw [if_pos h2]
      have : rd pkt (12 + 2) = ub := by
        unfold rd
        rw [List.getElem?_eq_none (by omega)]
      rw [this]; rfl
    rw [if_neg h2, rd_getD (i := 12 + 2) (by omega)]
    simp only [ok_bind, and15]
    have e1 : pkt.length - 12 - 2 = pkt.length - 14 := by omega
    have e3 : (pkt.getD (12 + 2) 0).toNat % 16 * 4 = ipHdr pkt := rfl
    rw [e1, e3]
    show (if pkt.length - 14 < ipHdr pkt then _ else _) = _
    by_cases h3 : pkt.length - 14 < ipHdr pkt
    · rw [if_pos h3, if_pos h3]
    rw [if_neg h3, if_neg h3]
    by_cases h4 : pkt.length < 18
    · rw [if_pos h4]
      by_cases h5 : pkt.length ≤ 16
      · have : rd pkt (12 + 2 + 2) = ub := by
          unfold rd
          rw [List.getElem?_eq_none (by omega)]
        rw [this]; rfl
      · rw [rd_getD (i := 12 + 2 + 2) (by omega), ok_bind]
        have : rd pkt (12 + 2 + 3) = ub := by
          unfold rd
          rw [List.getElem?_eq_none (by omega)]
        rw [this]; rfl
    rw [if_neg h4, rd_getD (i := 12 + 2 + 2) (by omega), rd_getD (i := 12 + 2 + 3) (by omega)]
    simp only [ok_bind]
    have e2 : (if be16 (pkt.getD (12 + 2 + 2) 0) (pkt.getD (12 + 2 + 3) 0) < pkt.length - 14 then be16 (pkt.getD (12 + 2 + 2) 0) (pkt.getD (12 + 2 + 3) 0)
        else pkt.length - 14) = min (ipTotal pkt) (pkt.length - 14) := by
      show (if ipTotal pkt < pkt.length - 14 then ipTotal pkt else _) = _
      split <;> omega
    rw [e2]
    show (if sub32 (min (ipTotal pkt) (pkt.length - 14)) (ipHdr pkt) < 8 then _ else _) = _
    generalize sub32 (min (ipTotal pkt) (pkt.length - 14)) (ipHdr pkt) = L
    by_cases h6 : L < 8
    · rw [if_pos h6, if_pos (by omega)]
    rw [if_neg h6]
    by_cases h7 : L < 20
    · rw [if_pos h7, if_pos (by omega)]
    rw [if_neg h7, if_neg (by omega)]
    have : 12 + 2 + ipHdr pkt + 8 = 22 + ipHdr pkt := by omega
    rw [this]
  · rw [if_pos (by simpa using h1), if_pos]
    rintro ⟨_, h2, h3⟩
    rw [e12] at h2
    rw [e13] at h3
    have h2' : pkt.getD 12 0 = 8 := Option.some.inj h2
    have h3' : pkt.getD (12 + 1) 0 = 0 := Option.some.inj h3
    have := (be16_ip (pkt.getD 12 0) (pkt.getD (12 + 1) 0)).mpr ⟨h2', h3'⟩
    exact h1 this

/-- For an IPv4/UDP frame, complete or cut short by the capture, with padding or without, the parser is given exactly the captured part of the UDP
payload (if that has at least the 12 octets of a DNS header). -/
theorem C90_payload (eth ip udp payload pad : List UInt8) (cap : Nat)
    (he : eth.length = 12) (h20 : 20 ≤ ip.length) (hi : ipHdr (eth ++ [8, 0] ++ ip) = ip.length)
    (ht : ipTotal (eth ++ [8, 0] ++ ip) = ip.length + udp.length + payload.length) (hu : udp.length = 8)
    (hcap : 14 + ip.length + 8 + 12 ≤ cap) (hp : 12 ≤ payload.length) (hbig : cap < 2 ^ 32) :
    ∃ p len, pcapWindow ((eth ++ [8, 0] ++ ip ++ udp ++ payload ++ pad).take cap) = ok (some (p, len)) ∧
      (((eth ++ [8, 0] ++ ip ++ udp ++ payload ++ pad).take cap).drop p).take len = payload.take (cap - (14 + ip.length + 8)) ∧
      len = (payload.take (cap - (14 + ip.length + 8))).length := by
  let all := eth ++ [8, 0] ++ ip ++ udp ++ payload ++ pad
  let pre := eth ++ [8, 0] ++ ip
  have hall : all = pre ++ (udp ++ payload ++ pad) := by simp [all, pre]
  have hprel : pre.length = 14 + ip.length := by simp [pre, he]; omega
  have hget : ∀ i, i < 34 → (all.take cap)[i]? = pre[i]? := by
    intro i hi
    rw [List.getElem?_take_of_lt (by omega), hall, List.getElem?_append_left (by omega)]
  have hgetD : ∀ i, i < 34 → (all.take cap).getD i 0 = pre.getD i 0 := by
    intro i hi
    rw [List.getD_eq_getElem?_getD, hget i hi, ← List.getD_eq_getElem?_getD]
  have hlen : (all.take cap).length = min cap (14 + ip.length + 8 + payload.length + pad.length) := by
    rw [List.length_take]
    simp only [hall, List.length_append, hprel, hu]
    omega
  have hpre12 : pre[12]? = some 8 := by
    simp only [pre, List.append_assoc]
    rw [List.getElem?_append_right (by omega), he]; rfl
  have hpre13 : pre[13]? = some 0 := by
    simp only [pre, List.append_assoc]
    rw [List.getElem?_append_right (by omega), he]; rfl
  have hi' : ipHdr (all.take cap) = ip.length := by
    rw [← hi]; unfold ipHdr; rw [hgetD 14 (by omega)]
  have ht' : ipTotal (all.take cap) = ip.length + 8 + payload.length := by
    rw [← hu, ← ht]; unfold ipTotal; rw [hgetD 16 (by omega), hgetD 17 (by omega)]
  have hsub : sub32 (min (ipTotal (all.take cap)) ((all.take cap).length - 14)) (ipHdr (all.take cap)) =
      8 + min payload.length (cap - (14 + ip.length + 8)) := by
    rw [hi', ht', hlen, sub32_eq (by omega) (by omega)]
    omega
  refine ⟨14 + ip.length + 8, min payload.length (cap - (14 + ip.length + 8)), ?_, ?_, ?_⟩
  · show pcapWindow (all.take cap) = _
    rw [pcapWindow_eq, if_neg (fun hn => hn ⟨by omega, by rw [hget 12 (by omega), hpre12], by rw [hget 13 (by omega), hpre13]⟩),
      if_neg (by omega), if_neg (by omega), if_neg (by omega), hsub, if_neg (by omega), hi']
    congr 3
    · omega
    · omega
  · show ((all.take cap).drop (14 + ip.length + 8)).take _ = _
    rw [List.drop_take, List.take_take]
    have : all.drop (14 + ip.length + 8) = payload ++ pad := by
      have : all = (pre ++ udp) ++ (payload ++ pad) := by simp [all, pre]
      rw [this, List.drop_left' (by rw [List.length_append, hprel, hu])]
    rw [this, List.take_append_of_le_length (by omega)]
    apply List.ext_getElem?
    intro i
    simp only [List.getElem?_take]
    by_cases h1 : i < payload.length
    · by_cases h2 : i < cap - (14 + ip.length + 8)
      · rw [if_pos (by omega), if_pos h2]
      · rw [if_neg (by omega), if_neg h2]
    · rw [List.getElem?_eq_none (by omega)]
      split <;> split <;> rfl
  · rw [List.length_take]; omega

/-- A case of `C90_payload`: a capture that cuts the payload of twenty octets after fifteen. -/
example : ∃ p len, pcapWindow ((List.replicate 12 (7 : UInt8) ++ [8, 0] ++ ([0x45, 0, 0, 48] ++ List.replicate 16 1) ++ List.replicate 8 2 ++ List.replicate 20 3 ++ [9, 9]).take 57) =
    ok (some (p, len)) ∧ len = 15 := by
  obtain ⟨p, len, h, -, hl⟩ := C90_payload (List.replicate 12 7) ([0x45, 0, 0, 48] ++ List.replicate 16 1) (List.replicate 8 2) (List.replicate 20 3) [9, 9] 57
    (by decide) (by decide) (by decide) (by decide) (by decide) (by decide) (by decide) (by decide)
  exact ⟨p, len, h, hl.trans (by decide)⟩

/-- For any capture whose IP header does not claim a total length below the header length, the octets given to the parser lie inside the capture. -/
theorem C90_inside_partial (pkt : List UInt8) (p len : Nat) (h : pcapWindow pkt = ok (some (p, len))) (ht : ipHdr pkt ≤ ipTotal pkt)
    (hbig : pkt.length < 2 ^ 32) : p + len ≤ pkt.length ∧ 12 ≤ len := by
  rw [pcapWindow_eq] at h
  repeat (split at h; · cases h)
  have := sub32_eq (a := min (ipTotal pkt) (pkt.length - 14)) (b := ipHdr pkt) (by omega) (by omega)
  simp only [ok.injEq, Option.some.injEq, Prod.mk.injEq] at h
  obtain ⟨rfl, rfl⟩ := h
  omega

/-- A case of `C90_inside_partial`: any frame for which a window is found, here one with padding. -/
example (pkt : List UInt8) (h : pkt = List.replicate 12 7 ++ [8, 0] ++ ([0x45, 0, 0, 41] ++ List.replicate 16 1) ++ List.replicate 8 2 ++ List.replicate 13 3 ++ [9, 9]) :
    42 + 13 ≤ pkt.length ∧ 12 ≤ 13 :=
  C90_inside_partial pkt 42 13 (by subst h; decide +kernel) (by subst h; decide) (by subst h; decide)

/-- Every IPv4 frame that claims a total length below its header length makes the handler pass a length of almost 2³² to the parser, far beyond
the capture. -/
theorem C90_inside_violated (pkt : List UInt8) (h : IpFrame pkt) (h18 : 18 ≤ pkt.length) (hh : ipHdr pkt ≤ pkt.length - 14)
    (ht : ipTotal pkt < ipHdr pkt) :
    ∃ p len, pcapWindow pkt = ok (some (p, len)) ∧ 2 ^ 32 - 68 ≤ len ∧ p ≤ pkt.length + 8 := by
  have h60 : ipHdr pkt ≤ 60 := by unfold ipHdr; omega
  have := sub32_wrap (a := min (ipTotal pkt) (pkt.length - 14)) (b := ipHdr pkt) (by omega) (by omega)
  rw [pcapWindow_eq, if_neg (fun hn => hn h), if_neg (by omega), if_neg (by omega), if_neg (by omega), if_neg (by omega)]
  exact ⟨_, _, rfl, by omega, by omega⟩

/-- A frame of 55 octets (IP total length 0, DNS header announcing one question, no more octets) for which the parser then reads beyond the capture. -/
def pcapBomb : List UInt8 :=
  List.replicate 12 0 ++ [8, 0] ++ [0x45, 0, 0, 0] ++ List.replicate 16 0 ++ List.replicate 8 0 ++ [0, 0, 0, 0, 0, 1, 0, 0, 0, 0, 0, 0] ++ [3]

theorem C90_overread_witness : pcapHandler pcapBomb = ub := by decide +kernel

/-- Which captures make the handler itself read beyond the capture: IPv4 frames of exactly 14 octets, and those of 15 to 17 octets whose header length is 0. -/
theorem C90_header_reads (pkt : List UInt8) :
    pcapWindow pkt = ub ↔ IpFrame pkt ∧ (pkt.length = 14 ∨ pkt.length < 18 ∧ ipHdr pkt = 0) := by
  rw [pcapWindow_eq]
  have h4 : ipHdr pkt % 4 = 0 := by unfold ipHdr; omega
  by_cases h0 : IpFrame pkt
  · have := h0.1
    rw [if_neg (fun hn => hn h0)]
    by_cases h1 : pkt.length = 14
    · rw [if_pos h1]; exact ⟨fun _ => ⟨h0, .inl h1⟩, fun _ => rfl⟩
    rw [if_neg h1]
    by_cases h2 : pkt.length - 14 < ipHdr pkt
    · rw [if_pos h2]
      constructor
      · intro h; cases h
      · rintro ⟨_, h | h⟩ <;> omega
    rw [if_neg h2]
    by_cases h3 : pkt.length < 18
    · rw [if_pos h3]; exact ⟨fun _ => ⟨h0, .inr ⟨h3, by omega⟩⟩, fun _ => rfl⟩
    rw [if_neg h3]
    constructor
    · intro h; split at h <;> cases h
    · rintro ⟨_, h | h⟩ <;> omega
  · rw [if_pos (show ¬ (14 ≤ pkt.length ∧ pkt[12]? = some 8 ∧ pkt[13]? = some 0) from h0)]
    constructor
    · intro h; cases h
    · intro h; exact absurd h.1 h0

/-- Everything else is skipped: no frame that is too short, of another type, or shorter than its IP header reaches the parser. -/
theorem C90_skipped (pkt : List UInt8) (h : ¬ IpFrame pkt ∨ 15 ≤ pkt.length ∧ pkt.length - 14 < ipHdr pkt) : pcapWindow pkt = ok none := by
  rw [pcapWindow_eq]
  by_cases h0 : IpFrame pkt
  · rw [if_neg (fun hn => hn h0)]
    rcases h with h | h
    · exact absurd h0 h
    · rw [if_neg (by omega), if_pos h.2]
  · rw [if_pos (show ¬ (14 ≤ pkt.length ∧ pkt[12]? = some 8 ∧ pkt[13]? = some 0) from h0)]

/-- Non-vacuity of `C90_payload`: a frame with a DNS header, two octets of padding. -/
example : pcapWindow (List.replicate 12 7 ++ [8, 0] ++ ([0x45, 0, 0, 41] ++ List.replicate 16 1) ++ List.replicate 8 2 ++ List.replicate 13 3 ++ [9, 9]) =
    ok (some (42, 13)) := by decide +kernel

end Wdns
