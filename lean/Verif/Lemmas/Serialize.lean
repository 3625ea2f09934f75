import Verif.Lemmas.RRset
import Verif.Lemmas.Copy

/-!
# Lemmas about RRset serialization
-/

namespace Wdns
open Outcome Spec

theorem enc16_length (le : Bool) (v : Nat) : (enc16 le v).length = 2 := by cases le <;> rfl
theorem enc32_length (le : Bool) (v : Nat) : (enc32 le v).length = 4 := by cases le <;> rfl

theorem dec16_enc16 (le : Bool) {v : Nat} (h : v < 65536) : dec16 le (enc16 le v) = v := by
  cases le <;> simp [dec16, enc16] <;> omega

theorem dec32_enc32 (le : Bool) {v : Nat} (h : v < 2 ^ 32) : dec32 le (enc32 le v) = v := by
  cases le <;> simp [dec32, enc32, be32] <;> omega

theorem dec16_lt (le : Bool) (l : List UInt8) : dec16 le l < 65536 := by
  unfold dec16
  split
  · rename_i a b
    have := u8_lt a; have := u8_lt b
    split <;> omega
  · omega

theorem dec32_lt (le : Bool) (l : List UInt8) : dec32 le l < 2 ^ 32 := by
  unfold dec32
  split
  · rename_i a b c d
    have := u8_lt a; have := u8_lt b; have := u8_lt c; have := u8_lt d
    simp only [be32]
    split <;> omega
  · omega

theorem enc16_dec16 (le : Bool) {l : List UInt8} (h : l.length = 2) : enc16 le (dec16 le l) = l := by
  match l, h with
  | [a, b], _ =>
    have := u8_lt a; have := u8_lt b
    cases le
    · simp only [dec16, enc16, Bool.false_eq_true, if_false]
      rw [show (a.toNat * 256 + b.toNat) / 256 = a.toNat by omega,
        show (a.toNat * 256 + b.toNat) % 256 = b.toNat by omega]
      simp
    · simp only [dec16, enc16, if_true]
      rw [show (b.toNat * 256 + a.toNat) / 256 = b.toNat by omega,
        show (b.toNat * 256 + a.toNat) % 256 = a.toNat by omega]
      simp

theorem enc32_dec32 (le : Bool) {l : List UInt8} (h : l.length = 4) : enc32 le (dec32 le l) = l := by
  match l, h with
  | [a, b, c, d], _ =>
    have := u8_lt a; have := u8_lt b; have := u8_lt c; have := u8_lt d
    have key : ∀ a b c d : Nat, a < 256 → b < 256 → c < 256 → d < 256 →
        (a * 16777216 + b * 65536 + c * 256 + d) / 16777216 = a ∧
        (a * 16777216 + b * 65536 + c * 256 + d) / 65536 % 256 = b ∧
        (a * 16777216 + b * 65536 + c * 256 + d) / 256 % 256 = c ∧
        (a * 16777216 + b * 65536 + c * 256 + d) % 256 = d := by intros; omega
    cases le
    · obtain ⟨h1, h2, h3, h4⟩ := key a.toNat b.toNat c.toNat d.toNat (by omega) (by omega) (by omega) (by omega)
      simp only [dec32, enc32, be32, Bool.false_eq_true, if_false, h1, h2, h3, h4]; simp
    · obtain ⟨h1, h2, h3, h4⟩ := key d.toNat c.toNat b.toNat a.toNat (by omega) (by omega) (by omega) (by omega)
      simp only [dec32, enc32, be32, if_true, h1, h2, h3, h4]; simp

/-- Serialized form of one rdata. -/
def serRdata (le : Bool) (r : CRdata) : List UInt8 := enc16 le r.len ++ r.bytes
/-- Serialized form of the fixed part. -/
def serHead (le : Bool) (s : RRset) : List UInt8 :=
  [UInt8.ofNat s.name.len] ++ (s.name.bytes ++ (enc16 le s.rrtype ++ (enc16 le s.rrclass ++
    (enc32 le s.rrttl ++ enc16 le s.rdatas.length))))
/-- Serialized form of an RRset. -/
def ser (le : Bool) (s : RRset) : List UInt8 := serHead le s ++ s.rdatas.flatMap (serRdata le)

theorem serializeSize_foldl (rs : List CRdata) (k : Nat) (hv : ∀ r ∈ rs, r.Valid) (le : Bool) :
    rs.foldl (fun sz r => sz + 2 + r.len) k = k + (rs.flatMap (serRdata le)).length := by
  induction rs generalizing k with
  | nil => simp
  | cons r rs ih =>
    rw [List.foldl_cons, ih _ (fun r h => hv r (by simp [h]))]
    simp [serRdata, enc16_length, CRdata.bytes_length (hv r (by simp))]; omega

theorem serializeSize_spec {s : RRset} (hv : s.Valid) (le : Bool) :
    serializeSize s = (ser le s).length := by
  unfold serializeSize
  rw [serializeSize_foldl _ _ hv.2 le]
  simp [ser, serHead, enc16_length, enc32_length, CName.bytes_length hv.1]; omega

theorem serializeRdatas_spec {le : Bool} {cap : Nat} : ∀ (rs : List CRdata) (out : List UInt8),
    (∀ r ∈ rs, r.Valid) → out.length + (rs.flatMap (serRdata le)).length ≤ cap →
    serializeRdatas le cap rs out = ok (out ++ rs.flatMap (serRdata le)) := by
  intro rs
  induction rs with
  | nil => intro out _ _; simp [serializeRdatas]
  | cons r rs ih =>
    intro out hv hc
    simp only [List.flatMap_cons, List.length_append, serRdata, enc16_length] at hc
    rw [serializeRdatas, wrN_ok (by rw [enc16_length]; omega), ok_bind, rdN_rdata (hv r (by simp)), ok_bind,
      wrN_ok (by simp only [List.length_append, enc16_length]; omega), ok_bind,
      ih _ (fun r h => hv r (by simp [h])) (by simp only [List.length_append, enc16_length]; omega)]
    simp [serRdata]

theorem serializeRrset_spec {le : Bool} {cap : Nat} {s : RRset} (hv : s.Valid)
    (hc : serializeSize s ≤ cap) : serializeRrset le cap s = ok (ser le s) := by
  rw [serializeSize_spec hv le] at hc
  simp only [ser, serHead, List.length_append, enc16_length, enc32_length, List.length_singleton] at hc
  unfold serializeRrset
  rw [wrN_ok (by simp; omega), ok_bind, rdN_name hv.1, ok_bind, wrN_ok (by simp; omega), ok_bind,
    wrN_ok (by simp [enc16_length]; omega), ok_bind, wrN_ok (by simp [enc16_length]; omega), ok_bind,
    wrN_ok (by simp [enc16_length, enc32_length]; omega), ok_bind,
    wrN_ok (by simp [enc16_length, enc32_length]; omega), ok_bind,
    serializeRdatas_spec _ _ hv.2 (by simp [-List.length_flatMap, enc16_length, enc32_length]; omega)]
  simp [ser, serHead]

/-! ### copyBytes -/

theorem copyBytes_cases {buf : List UInt8} {sz off n : Nat} (hsz : sz ≤ buf.length) :
    copyBytes buf sz off n = err .overflow ∨
    ∃ d, copyBytes buf sz off n = ok d ∧ d.length = n ∧ off + n ≤ sz ∧
      buf.take (off + n) = buf.take off ++ d := by
  unfold copyBytes
  split
  · exact .inl rfl
  · right
    rw [rdN_ok (by omega)]
    refine ⟨_, rfl, by simp; omega, by omega, ?_⟩
    rw [List.take_add]

theorem copyBytes_ok {buf : List UInt8} {sz off n : Nat} {d : List UInt8} (hsz : sz ≤ buf.length)
    (hd : d.length = n) (ho : off + n ≤ sz) (hp : buf.take (off + n) = buf.take off ++ d) :
    copyBytes buf sz off n = ok d := by
  rcases copyBytes_cases (off := off) (n := n) hsz with h | ⟨d', h, _, _, h'⟩
  · unfold copyBytes at h
    rw [if_neg (by omega), rdN_ok (by omega)] at h
    simp at h
  · rw [h]
    rw [hp] at h'
    exact congrArg ok (List.append_cancel_left h').symm

/-- A buffer whose first octets are `pre ++ d ++ …`. -/
theorem take_of_prefix {buf pre d : List UInt8} {k : Nat} (h : (pre ++ d) <+: buf) (hk : pre.length = k) :
    buf.take (k + d.length) = buf.take k ++ d := by
  obtain ⟨t, rfl⟩ := h
  subst hk
  have e1 : (pre ++ d ++ t).take (pre.length + d.length) = pre ++ d := by
    rw [← List.length_append]; exact List.take_left
  rw [e1]
  rw [List.append_assoc, List.take_left]

theorem copyBytes_prefix {buf pre d : List UInt8} {sz k n : Nat} (hsz : sz ≤ buf.length)
    (h : (pre ++ d) <+: buf) (hk : pre.length = k) (hn : d.length = n) (ho : k + n ≤ sz) :
    copyBytes buf sz k n = ok d := by
  subst hn
  exact copyBytes_ok hsz rfl ho (take_of_prefix h hk)

/-- The blocks hold exactly the bytes the length fields say. -/
def RRset.Exact (s : RRset) : Prop :=
  s.name.data.length = s.name.len ∧ ∀ d ∈ s.rdatas, d.data.length = d.len

theorem CRdata.bytes_exact {r : CRdata} (h : r.data.length = r.len) : r.bytes = r.data := by
  simp [CRdata.bytes, ← h]

/-- The RRset with all blocks cut to their length. -/
def RRset.trim (s : RRset) : RRset :=
  { s with name := ⟨s.name.len, s.name.bytes⟩, rdatas := s.rdatas.map fun r => ⟨r.len, r.bytes⟩ }

theorem deserializeRdatas_complete {le : Bool} {buf : List UInt8} {sz : Nat} (hsz : sz ≤ buf.length) :
    ∀ (rs : List CRdata) (pre : List UInt8) (acc : List CRdata),
    (∀ r ∈ rs, r.Valid ∧ r.len < 2 ^ 16) → (pre ++ rs.flatMap (serRdata le)) <+: buf →
    pre.length + (rs.flatMap (serRdata le)).length ≤ sz →
    deserializeRdatas le buf sz rs.length pre.length acc =
      ok (acc ++ rs.map fun r => ⟨r.len, r.bytes⟩) := by
  intro rs
  induction rs with
  | nil => intro pre acc _ _ _; simp [deserializeRdatas]
  | cons r rs ih =>
    intro pre acc hv hp hl
    obtain ⟨h1, h2⟩ := hv r (by simp)
    have hb := CRdata.bytes_length h1
    simp only [List.flatMap_cons, List.length_append, serRdata, enc16_length] at hl
    simp only [List.flatMap_cons, serRdata, ← List.append_assoc] at hp
    have p1 : (pre ++ enc16 le r.len) <+: buf := by
      refine List.IsPrefix.trans ?_ hp
      rw [List.append_assoc, List.append_assoc, ]
      simp
    have p2 : (pre ++ enc16 le r.len ++ r.bytes) <+: buf :=
      List.IsPrefix.trans (List.prefix_append _ _) hp
    rw [List.length_cons, deserializeRdatas,
      copyBytes_prefix hsz p1 rfl (enc16_length le _) (by omega), ok_bind]
    simp only [dec16_enc16 le h2]
    rw [copyBytes_prefix hsz p2 (by simp [enc16_length]) hb (by omega), ok_bind]
    have := ih (pre ++ enc16 le r.len ++ r.bytes) (acc ++ [⟨r.len, r.bytes⟩])
      (fun r h => hv r (by simp [h])) hp (by simp [-List.length_flatMap, enc16_length]; omega)
    simp only [List.length_append, enc16_length, hb] at this
    rw [this]; simp

theorem deserializeRrset_complete {le : Bool} {buf : List UInt8} {sz : Nat} {s : RRset}
    (hsz : sz ≤ buf.length) (hv : s.Valid) (hf : s.Fits) (hp : ser le s <+: buf)
    (hl : (ser le s).length ≤ sz) : deserializeRrset le buf sz = ok s.trim := by
  obtain ⟨f1, f2, f3, f4, f5, f6⟩ := hf
  have hb := CName.bytes_length hv.1
  have hn : (UInt8.ofNat s.name.len).toNat = s.name.len := by simp; omega
  have hl' := hl
  simp only [ser, serHead, List.length_append, enc16_length, enc32_length, List.length_singleton, hb] at hl'
  unfold deserializeRrset
  have pf : ∀ (x y : List UInt8), x ++ y = ser le s → x <+: buf := fun x y h =>
    List.IsPrefix.trans ⟨y, h⟩ hp
  rw [copyBytes_prefix (k := 0) (n := 1) (pre := []) (d := [UInt8.ofNat s.name.len]) hsz (pf _ _ (by simp only [ser, serHead, List.append_assoc, List.nil_append]; rfl))
    rfl rfl (by omega), ok_bind]
  simp only [List.headD_cons, hn]
  rw [copyBytes_prefix (k := 1) (pre := [UInt8.ofNat s.name.len]) (d := s.name.bytes) hsz
    (pf _ _ (by simp only [ser, serHead, List.append_assoc, List.nil_append]; rfl)) rfl hb (by omega), ok_bind]
  rw [copyBytes_prefix (pre := [UInt8.ofNat s.name.len] ++ s.name.bytes) (k := 1 + s.name.len) (d := enc16 le s.rrtype) hsz
    (pf _ _ (by simp only [ser, serHead, List.append_assoc, List.nil_append]; rfl)) (by simp [hb]; omega) (enc16_length _ _) (by omega), ok_bind]
  rw [copyBytes_prefix (pre := [UInt8.ofNat s.name.len] ++ s.name.bytes ++ enc16 le s.rrtype)
    (k := 1 + s.name.len + 2) (d := enc16 le s.rrclass) hsz
    (pf _ _ (by simp only [ser, serHead, List.append_assoc, List.nil_append]; rfl)) (by simp [hb, enc16_length]; omega) (enc16_length _ _) (by omega), ok_bind]
  rw [copyBytes_prefix (pre := [UInt8.ofNat s.name.len] ++ s.name.bytes ++ enc16 le s.rrtype ++ enc16 le s.rrclass)
    (k := 1 + s.name.len + 4) (d := enc32 le s.rrttl) hsz
    (pf _ _ (by simp only [ser, serHead, List.append_assoc, List.nil_append]; rfl)) (by simp [hb, enc16_length]; omega) (enc32_length _ _) (by omega), ok_bind]
  rw [copyBytes_prefix (pre := [UInt8.ofNat s.name.len] ++ s.name.bytes ++ enc16 le s.rrtype ++ enc16 le s.rrclass ++ enc32 le s.rrttl)
    (k := 1 + s.name.len + 8) (d := enc16 le s.rdatas.length) hsz
    (pf _ _ (by simp only [ser, serHead, List.append_assoc, List.nil_append]; rfl)) (by simp [hb, enc16_length, enc32_length]; omega)
    (enc16_length _ _) (by omega), ok_bind]
  simp only [dec16_enc16 le f5, dec16_enc16 le f2, dec16_enc16 le f3, dec32_enc32 le f1]
  have := deserializeRdatas_complete hsz s.rdatas (serHead le s) [] (le := le)
    (fun r h => ⟨hv.2 r h, f6 r h⟩) hp (by simpa [ser] using hl)
  rw [show 1 + s.name.len + 10 = (serHead le s).length by simp [serHead, enc16_length, enc32_length, hb]; omega, this]
  simp [RRset.trim]

theorem deserializeRdatas_sound {le : Bool} {buf : List UInt8} {sz : Nat} (hsz : sz ≤ buf.length) :
    ∀ n off acc, off ≤ sz → deserializeRdatas le buf sz n off acc = err .overflow ∨
    ∃ rs, deserializeRdatas le buf sz n off acc = ok (acc ++ rs) ∧ rs.length = n ∧
      (∀ r ∈ rs, r.data.length = r.len ∧ r.len < 2 ^ 16) ∧
      off + (rs.flatMap (serRdata le)).length ≤ sz ∧
      buf.take (off + (rs.flatMap (serRdata le)).length) = buf.take off ++ rs.flatMap (serRdata le) := by
  intro n
  induction n with
  | zero => intro off acc h; exact .inr ⟨[], by simp [deserializeRdatas], rfl, by simp, by simpa using h, by simp⟩
  | succ n ih =>
    intro off acc h
    rw [deserializeRdatas]
    rcases copyBytes_cases (off := off) (n := 2) hsz with e | ⟨b, e, hb, ho, ht⟩
    · rw [e]; exact .inl rfl
    rw [e, ok_bind]
    simp only []
    rcases copyBytes_cases (off := off + 2) (n := dec16 le b) hsz with e | ⟨d, e, hd, ho', ht'⟩
    · rw [e]; exact .inl rfl
    rw [e, ok_bind]
    rcases ih (off + 2 + dec16 le b) (acc ++ [⟨dec16 le b, d⟩]) ho' with e | ⟨rs, e, h1, h2, h3, h4⟩
    · exact .inl e
    · right
      have hser : serRdata le ⟨dec16 le b, d⟩ = b ++ d := by
        rw [serRdata, CRdata.bytes_exact hd]; simp only [enc16_dec16 le hb]
      refine ⟨⟨dec16 le b, d⟩ :: rs, by rw [e]; simp, by simp [h1], ?_, ?_, ?_⟩
      · intro r hr
        rcases List.mem_cons.mp hr with rfl | hr
        · exact ⟨hd, dec16_lt le b⟩
        · exact h2 r hr
      · rw [List.flatMap_cons, hser]; simp only [List.length_append, hb, hd]; omega
      · rw [List.flatMap_cons, hser]
        simp only [List.length_append, hb, hd]
        rw [show off + (2 + dec16 le b + (rs.flatMap (serRdata le)).length) =
          off + 2 + dec16 le b + (rs.flatMap (serRdata le)).length by omega, h4, ht', ht]
        simp

theorem deserializeRrset_sound {le : Bool} {buf : List UInt8} {sz : Nat} (hsz : sz ≤ buf.length) :
    deserializeRrset le buf sz = err .overflow ∨
    ∃ s, deserializeRrset le buf sz = ok s ∧ s.Exact ∧ s.Fits ∧ (ser le s).length ≤ sz ∧ ser le s <+: buf := by
  unfold deserializeRrset
  rcases copyBytes_cases (off := 0) (n := 1) hsz with e | ⟨b, e, hb, o0, t0⟩
  · rw [e]; exact .inl rfl
  rw [e, ok_bind]
  simp only []
  obtain ⟨x, rfl⟩ := List.length_eq_one_iff.mp hb
  simp only [List.headD_cons]
  rcases copyBytes_cases (off := 1) (n := x.toNat) hsz with e | ⟨nm, e, hnm, o1, t1⟩
  · rw [e]; exact .inl rfl
  rw [e, ok_bind]
  rcases copyBytes_cases (off := 1 + x.toNat) (n := 2) hsz with e | ⟨t, e, ht, o2, t2⟩
  · rw [e]; exact .inl rfl
  rw [e, ok_bind]
  rcases copyBytes_cases (off := 1 + x.toNat + 2) (n := 2) hsz with e | ⟨c, e, hc, o3, t3⟩
  · rw [e]; exact .inl rfl
  rw [e, ok_bind]
  rcases copyBytes_cases (off := 1 + x.toNat + 4) (n := 4) hsz with e | ⟨l, e, hl, o4, t4⟩
  · rw [e]; exact .inl rfl
  rw [e, ok_bind]
  rcases copyBytes_cases (off := 1 + x.toNat + 8) (n := 2) hsz with e | ⟨k, e, hk, o5, t5⟩
  · rw [e]; exact .inl rfl
  rw [e, ok_bind]
  rcases deserializeRdatas_sound (le := le) hsz (dec16 le k) (1 + x.toNat + 10) [] (by omega) with
    e | ⟨rs, e, h1, h2, h3, h4⟩
  · rw [e]; exact .inl rfl
  rw [e, ok_bind]
  right
  refine ⟨_, rfl, ⟨hnm, by simpa using fun r hr => (h2 r hr).1⟩, ⟨dec32_lt _ _, dec16_lt _ _, dec16_lt _ _, ?_,
    ?_, by simpa using fun r hr => (h2 r hr).2⟩, ?_⟩
  · exact u8_lt x
  · simp only [List.nil_append]; rw [h1]; exact dec16_lt _ _
  have hser : ser le ⟨dec32 le l, dec16 le t, dec16 le c, ⟨x.toNat, nm⟩, [] ++ rs⟩ =
      [x] ++ (nm ++ (t ++ (c ++ (l ++ k)))) ++ rs.flatMap (serRdata le) := by
    simp only [ser, serHead, CName.bytes, List.nil_append, h1, enc16_dec16 le ht, enc16_dec16 le hc,
      enc32_dec32 le hl, enc16_dec16 le hk, ← hnm, List.take_length]
    simp [hnm]
  rw [hser]
  have hfull : buf.take (1 + x.toNat + 10 + (rs.flatMap (serRdata le)).length) =
      [x] ++ (nm ++ (t ++ (c ++ (l ++ k)))) ++ rs.flatMap (serRdata le) := by
    rw [h4, show 1 + x.toNat + 10 = 1 + x.toNat + 8 + 2 by omega, t5,
      show 1 + x.toNat + 8 = 1 + x.toNat + 4 + 4 by omega, t4,
      show 1 + x.toNat + 4 = 1 + x.toNat + 2 + 2 by omega, t3, t2, t1]
    rw [show buf.take 1 = [x] by simpa using t0]
    simp
  constructor
  · simp only [List.length_append, List.length_singleton, hnm, ht, hc, hl, hk]; omega
  · rw [← hfull]; exact List.take_prefix _ _

end Wdns
