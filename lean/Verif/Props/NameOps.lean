import Verif.Lemmas.NameOps
import Verif.Props.Unpack

/-!
# Properties C07 - C14: skipping, measuring, counting, chopping, comparing, reversing, down-casing

`Holds c n` : the `wdns_name_t` `c` holds the wire form of the well-formed name `n`.
-/

namespace Wdns
open Outcome Spec

/-! ## C07 -/

/-- **C07.** Whenever `wdns_skip_name` returns, the cursor has not moved backwards nor beyond the end
of the buffer, and the return value is the distance moved; it always returns when the byte behind the
buffer is readable. -/
theorem C07_skip_bounded (mem : List UInt8) (data eod : Nat) (h : data ≤ eod) (h64 : eod < 2 ^ 64) :
    (∀ new k, skipName mem data eod = ok (new, k) → data ≤ new ∧ new ≤ eod ∧ k = new - data) ∧
    (eod < mem.length → ∃ new k, skipName mem data eod = ok (new, k)) := by
  rcases skipLoop_spec (mem := mem) (eod := eod) (eod + 2) data (by omega) (by omega) with
    ⟨e, h1, h2⟩ | ⟨h1, h2⟩
  · simp only [skipName, h1, ok_bind, ok.injEq, Prod.mk.injEq]
    refine ⟨?_, fun _ => ⟨_, _, rfl, rfl⟩⟩
    rintro new k ⟨rfl, rfl⟩
    split <;> omega
  · simp only [skipName, h1, ub_bind]
    exact ⟨by simp, by omega⟩

/-- A case of `C07_skip_bounded`: any octets, with one octet behind them. -/
example : ∃ new k, skipName [7, 200, 65, 98] 0 3 = ok (new, k) := (C07_skip_bounded [7, 200, 65, 98] 0 3 (by decide) (by decide)).2 (by decide)

/-- `wdns_skip_name` does read the byte behind the buffer (here: a two byte buffer). -/
theorem C07_skip_overread : skipName [1, 97] 0 2 = ub := by decide

example : skipName [7, 2, 65, 98, 0xc0, 0, 9] 1 6 = ok (6, 5) := by decide
example : skipName [7, 200, 65, 98] 0 3 = ok (3, 3) := by decide

/-! ## C08 -/

/-- **C08.** For every name that the message contains (`Denotes`, hence every name accepted by
`wdns_unpack_name` within the buffer, see `C02_unpack_exact_partial`), `wdns_skip_name` moves the
cursor exactly to the end of its encoding: one past the zero octet or past the first pointer. -/
theorem C08_skip_agrees (mem : List UInt8) (p src eop : Nat) (n : Name)
    (h64 : eop < 2 ^ 64)
    (hd : Denotes (mem.take eop) p src n) :
    ∃ e, EncEnd (mem.take eop) src e ∧ e ≤ eop ∧ skipName mem src eop = ok (e, e - src) := by
  obtain ⟨e, he, hl⟩ := encEnd_of_denotes hd
  obtain ⟨h1, h2⟩ := skipLoop_encEnd he (eop + 2) (by omega)
  simp only [List.length_take] at hl
  refine ⟨e, he, by omega, ?_⟩
  simp only [skipName, h1, ok_bind]
  rw [show e - 1 + 1 = e by omega, if_neg (by omega)]
  congr 2
  omega

/-- **C08**, in terms of the two API functions only. -/
theorem C08_skip_agrees_unpack (msg : List UInt8) (p src : Nat) (dst : List UInt8) (sz : Nat)
    (h64 : msg.length < 2 ^ 64)
    (h : unpackName 255 msg p msg.length src = ok (dst, sz)) :
    ∃ e, EncEnd msg src e ∧ e ≤ msg.length ∧ skipName msg src msg.length = ok (e, e - src) := by
  have hb : p ≤ src ∧ src < msg.length := by
    unfold unpackName at h
    split at h
    · simp at h
    · omega
  obtain ⟨n, hd, _⟩ := (C02_unpack_exact_partial 255 msg p src dst sz (by omega) hb.1 hb.2).mp h
  have hd' : Denotes (msg.take msg.length) p src n := by rw [List.take_of_length_le (by omega)]; exact hd
  have := C08_skip_agrees msg p src msg.length n h64 hd'
  rw [List.take_of_length_le (by omega)] at this
  exact this

example : unpackName 255 tMsg 0 15 6 = ok ([2, 65, 98, 3, 99, 111, 109, 0], 8) ∧
    skipName tMsg 6 15 = ok (11, 5) := by decide

/-! ## C09 -/

/-- **C09, partial.** `wdns_len_uname` reports a length that lies inside the buffer exactly when the
buffer starts with a complete well-formed uncompressed name, and then it is the name's length; the
call always returns and reads only the buffer.
Missing: on a buffer filled exactly by labels without terminator it also "succeeds", with a length
larger than the buffer (`C09_len_violated`). -/
theorem C09_len_exact_partial (mem : List UInt8) (p eop sz : Nat)
    (hm : eop ≤ mem.length) (h32' : eop - p + 1 < 2 ^ 32) :
    (lenUname mem p eop).Returns ∧
    ((lenUname mem p eop = ok sz ∧ p + sz ≤ eop) ↔
      ∃ n, WF n ∧ wire n <+: (mem.take eop).drop p ∧ sz = (wire n).length) := by
  have h32 : eop - p < 2 ^ 32 := by omega
  by_cases hp : p ≥ eop
  · refine ⟨by simp [lenUname, hp], ?_⟩
    constructor
    · rintro ⟨h, _⟩; simp [lenUname, hp] at h
    · rintro ⟨n, _, h, _⟩
      have := prefix_drop_length h (wire_ne_nil n)
      have h2 := wire_length_pos n
      simp only [List.length_take] at this; omega
  · have hpl : p + (eop - p) = eop := by omega
    have hc := lenLoop_complete (mem := mem)
    have hspec := lenLoop_spec (mem := mem) ((eop - p) % 2 ^ 32 + 1) p ((eop - p) % 2 ^ 32) (by omega)
      (by omega)
    rw [Nat.mod_eq_of_lt h32, hpl] at hspec
    have hu : lenUname mem p eop = (lenLoop mem (eop - p + 1) p (eop - p) >>= fun len =>
        if (eop - p + 2 ^ 32 - len) % 2 ^ 32 > maxlenName then err .nameLen
        else ok ((eop - p + 2 ^ 32 - len) % 2 ^ 32)) := by
      simp only [lenUname, hp, if_false, Nat.mod_eq_of_lt h32]
    have hwp := fun n => wire_length_pos n
    constructor
    · rw [hu]
      apply Returns.bind
      · rcases hspec with h | ⟨n, _, _, h, _⟩ | ⟨n, _, _, h⟩ <;> rw [h] <;> simp
      · intro a _; split <;> simp
    · constructor
      · rintro ⟨h, hle⟩
        rw [hu] at h
        rcases hspec with h1 | ⟨n, a, b, d, f⟩ | ⟨n, a, b, d⟩
        · simp [h1] at h
        · rw [d, ok_bind] at h
          have h3 := wire_length_pos n
          have e1 : (eop - p + 2 ^ 32 - (eop - p - (wire n).length)) % 2 ^ 32 = (wire n).length := by
            omega
          rw [e1] at h
          unfold maxlenName at h
          split at h
          · simp at h
          · simp only [ok.injEq] at h
            exact ⟨n, ⟨a, by omega⟩, b, h.symm⟩
        · rw [d, ok_bind] at h
          rw [show eop - p + 2 ^ 32 - (2 ^ 32 - 1) = eop - p + 1 by omega, Nat.mod_eq_of_lt h32'] at h
          split at h
          · simp at h
          · simp only [ok.injEq] at h; omega
      · rintro ⟨n, hn, hst, rfl⟩
        have h1 := hc n (eop - p + 1) p (eop - p) (by omega) (by omega) hn.1 (by rw [hpl]; exact hst)
        have h3 := wire_length_pos n
        have h4 := hn.2
        rw [hu, h1.1, ok_bind]
        have e1 : (eop - p + 2 ^ 32 - (eop - p - (wire n).length)) % 2 ^ 32 = (wire n).length := by
          omega
        rw [e1, if_neg (by unfold maxlenName; omega)]
        exact ⟨rfl, by omega⟩

/-- **C09 is violated**: `[1, 'a']` is not a complete name, yet the call succeeds with length 3,
beyond the two byte buffer. -/
theorem C09_len_violated :
    lenUname [1, 97] 0 2 = ok 3 ∧ ¬ ∃ n, wire n <+: (([1, 97] : List UInt8).take 2).drop 0 := by
  refine ⟨by decide, ?_⟩
  rintro ⟨n, h⟩
  cases n with
  | nil => simp [wire] at h
  | cons l n =>
    simp only [wire, List.take_succ_cons, List.take_zero, List.drop_zero, List.cons_prefix_cons] at h
    obtain ⟨h1, h2⟩ := h
    have h3 := h2.length_le
    have h4 := wire_length_pos n
    simp at h3
    have : l = [] := by
      cases l with
      | nil => rfl
      | cons a l => simp at h3; omega
    subst this
    simp at h1

example : wire [[119], [65, 98]] <+: (([1, 119, 2, 65, 98, 0, 7] : List UInt8).take 7).drop 0 ∧
    lenUname [1, 119, 2, 65, 98, 0, 7] 0 7 = ok 6 := by decide

/-! ## C10 -/

/-- **C10.** `wdns_count_labels` on a well-formed name reports the number of labels. -/
theorem C10_count_labels (c : CName) (n : Name) (h : Holds c n) : countLabels c = ok n.length := by
  obtain ⟨hn, hl, hst⟩ := h
  rw [countLabels, countLoop_spec c n 0 0 _ hn.1 (by simpa using hst) (by omega) (by omega)]
  simp

example : Holds ⟨6, [1, 119, 2, 65, 98, 0]⟩ [[119], [65, 98]] := by
  refine ⟨by decide, by decide, by decide⟩

/-! ## C11 -/

/-- **C11.** `wdns_left_chop` on a well-formed name yields the well-formed name without its leftmost
label; on the root it yields the root. -/
theorem C11_left_chop (c : CName) (n : Name) (h : Holds c n) :
    ∃ c', leftChop c = ok c' ∧ Holds c' n.tail := by
  obtain ⟨hn, hl, hst⟩ := h
  have hst' : wire n <+: c.data.drop 0 := by simpa using hst
  cases n with
  | nil =>
    rw [stored_nil] at hst'
    simp only [wire, List.length_singleton] at hl
    refine ⟨⟨1, c.data⟩, by simp [leftChop, rd, hst', hl], hn, by simp [wire], hst⟩
  | cons l n =>
    obtain ⟨h1, h2, h3⟩ := stored_cons.mp hst'
    have hlk := hn.1 l (by simp)
    have e := ofNat_label_toNat hlk
    have h4 := hlk.1
    have hwp := wire_length_pos n
    rw [wire_cons_length] at hl
    refine ⟨⟨c.len - l.length - 1, c.data.drop (l.length + 1)⟩, ?_, ?_, ?_, ?_⟩
    · simp only [leftChop, rd, h1, ok_bind, e]
      rw [if_neg (by rw [u8_eq_zero, e]; omega), if_neg (by omega)]
    · refine ⟨fun l hm => hn.1 l (List.mem_cons_of_mem _ hm), ?_⟩
      have := hn.2; rw [wire_cons_length] at this; simp only [List.tail_cons]; omega
    · simp only [List.tail_cons]; omega
    · simp only [List.tail_cons]
      rw [show 0 + 1 + l.length = l.length + 1 by omega] at h3; exact h3

/-- Repeated chopping. -/
def chopN : Nat → CName → Outcome CName
  | 0, c => ok c
  | k + 1, c => leftChop c >>= chopN k

/-- **C11 (iterated).** Chopping as many times as `wdns_count_labels` says reaches the root; chopping
`k` times removes exactly the `k` leftmost labels. -/
theorem C11_chop_reaches_root (c : CName) (n : Name) (h : Holds c n) :
    (∀ k, ∃ c', chopN k c = ok c' ∧ Holds c' (n.drop k)) ∧
    ∃ k c', countLabels c = ok k ∧ chopN k c = ok c' ∧ Holds c' [] := by
  have key : ∀ k (c : CName) (n : Name), Holds c n → ∃ c', chopN k c = ok c' ∧ Holds c' (n.drop k) := by
    intro k
    induction k with
    | zero => intro c n h; exact ⟨c, rfl, by simpa using h⟩
    | succ k ih =>
      intro c n h
      obtain ⟨c1, h1, h2⟩ := C11_left_chop c n h
      obtain ⟨c2, h3, h4⟩ := ih c1 n.tail h2
      refine ⟨c2, by simp [chopN, h1, h3], ?_⟩
      rw [List.drop_tail] at h4; exact h4
  refine ⟨fun k => key k c n h, ?_⟩
  obtain ⟨c', h1, h2⟩ := key n.length c n h
  exact ⟨n.length, c', C10_count_labels c n h, h1, by simpa using h2⟩

/-- A case of `C11_chop_reaches_root`. -/
example : ∃ k c', countLabels ⟨6, [1, 119, 2, 65, 98, 0]⟩ = ok k ∧ chopN k ⟨6, [1, 119, 2, 65, 98, 0]⟩ = ok c' ∧ Holds c' [] :=
  (C11_chop_reaches_root ⟨6, [1, 119, 2, 65, 98, 0]⟩ [[119], [65, 98]] ⟨by decide, by decide, by decide⟩).2

/-- **C11 (any name object).** Also for a malformed name, what `wdns_left_chop` returns is a tail of the given
name: it ends where the given name ends. -/
theorem C11_result_is_tail (c c' : CName) (h : leftChop c = ok c') :
    c'.len ≤ c.len ∧ c'.data = c.data.drop (c.len - c'.len) := by
  unfold leftChop at h
  cases hr : rd c.data 0 with
  | ok o =>
    rw [hr] at h
    simp only [ok_bind] at h
    split at h
    · rename_i h1
      cases h
      simp [h1.2]
    · split at h
      · simp at h
      · cases h
        refine ⟨by simp only; omega, ?_⟩
        have : c.len - (c.len - o.toNat - 1) = o.toNat + 1 := by omega
        simp only [this]
  | _ => rw [hr] at h; simp at h

example : leftChop ⟨6, [1, 119, 2, 65, 98, 0]⟩ = ok ⟨4, [2, 65, 98, 0]⟩ := by decide

/-! ## C12 -/

/-- **C12.** For well-formed names `wdns_is_subdomain` succeeds, and reports true exactly when the label
sequence of `n1` is a proper suffix of that of `n0`. -/
theorem C12_is_subdomain (c0 c1 : CName) (n0 n1 : Name) (h0 : Holds c0 n0) (h1 : Holds c1 n1) :
    ∃ b, isSubdomain c0 c1 = ok b ∧ (b = true ↔ (n1 <:+ n0 ∧ n1 ≠ n0)) := by
  have k0 := C10_count_labels c0 n0 h0
  have k1 := C10_count_labels c1 n1 h1
  obtain ⟨w0, l0, s0⟩ := h0
  obtain ⟨w1, l1, s1⟩ := h1
  simp only [isSubdomain, k0, k1, asParseError, ok_bind]
  by_cases hle : n0.length ≤ n1.length
  · refine ⟨false, by simp [hle], by simp, ?_⟩
    rintro ⟨hs, hne⟩
    exact absurd (hs.eq_of_length (by have := hs.length_le; omega)) hne
  · rw [if_neg hle, if_neg (by omega)]
    by_cases hz : n1.length = 0
    · refine ⟨true, by simp [hz], fun _ => ?_, fun _ => rfl⟩
      have : n1 = [] := List.length_eq_zero_iff.mp hz
      subst this
      refine ⟨List.nil_suffix, ?_⟩
      rintro rfl; simp at hle
    · rw [if_neg hz]
      have hb0 := w0.2
      have hb1 := w1.2
      have e0 := offsetsLoop_spec c0 n0.length (by omega) n0 0 [] (c0.len + 2) w0.1
        (by rintro rfl; simp at hle) (by simpa using s0) (by omega) (by simp) (by omega)
      have e1 := offsetsLoop_spec c1 n1.length (by omega) n1 0 [] (c1.len + 2) w1.1
        (by rintro rfl; simp at hz) (by simpa using s1) (by omega) (by simp) (by omega)
      simp only [genLabelOffsets, e0, e1, List.nil_append, ok_bind, offs_length, Nat.sub_self,
        List.replicate_zero, List.append_nil]
      have p0 : labs n0.reverse.reverse <+: c0.data.drop 0 := by
        rw [List.reverse_reverse, List.drop_zero]
        rw [wire_eq_labs] at s0
        exact (List.prefix_append _ _).trans s0
      have p1 : labs n1.reverse.reverse <+: c1.data.drop 0 := by
        rw [List.reverse_reverse, List.drop_zero]
        rw [wire_eq_labs] at s1
        exact (List.prefix_append _ _).trans s1
      have := compareLoop_spec n1.reverse n0.reverse
        (fun l hm => w0.1 l (List.mem_reverse.mp hm)) (fun l hm => w1.1 l (List.mem_reverse.mp hm))
        p0 p1 (by simp; omega)
      simp only [List.reverse_reverse] at this
      rw [this]
      refine ⟨_, rfl, ?_⟩
      rw [decide_eq_true_iff, List.reverse_prefix]
      exact ⟨fun h => ⟨h, by rintro rfl; omega⟩, fun h => h.1⟩

/-- **C12 (order).** The reported relation is irreflexive, asymmetric and transitive, and every
non-root name is a subdomain of the root. -/
theorem C12_is_subdomain_order (c0 c1 c2 : CName) (n0 n1 n2 : Name)
    (h0 : Holds c0 n0) (h1 : Holds c1 n1) (h2 : Holds c2 n2) :
    isSubdomain c0 c0 = ok false ∧
    (isSubdomain c0 c1 = ok true → isSubdomain c1 c0 = ok false) ∧
    (isSubdomain c0 c1 = ok true → isSubdomain c1 c2 = ok true → isSubdomain c0 c2 = ok true) ∧
    (n1 = [] → n0 ≠ [] → isSubdomain c0 c1 = ok true) := by
  have key : ∀ {c c' : CName} {n n' : Name}, Holds c n → Holds c' n' →
      (isSubdomain c c' = ok true ↔ n' <:+ n ∧ n' ≠ n) ∧
      (isSubdomain c c' = ok false ↔ ¬ (n' <:+ n ∧ n' ≠ n)) := by
    intro c c' n n' h h'
    obtain ⟨b, e, hb⟩ := C12_is_subdomain c c' n n' h h'
    rw [e]
    cases b <;> simp_all
  refine ⟨?_, ?_, ?_, ?_⟩
  · rw [(key h0 h0).2]; simp
  · rw [(key h0 h1).1, (key h1 h0).2]
    rintro ⟨a, b⟩ ⟨c, d⟩
    exact b (a.eq_of_length (by have := a.length_le; have := c.length_le; omega))
  · rw [(key h0 h1).1, (key h1 h2).1, (key h0 h2).1]
    rintro ⟨a, b⟩ ⟨c, d⟩
    refine ⟨c.trans a, ?_⟩
    rintro rfl
    exact b (a.eq_of_length (by have := a.length_le; have := c.length_le; omega))
  · rintro rfl hne
    rw [(key h0 h1).1]
    exact ⟨List.nil_suffix, fun h => hne h.symm⟩

example : isSubdomain ⟨6, [1, 119, 2, 65, 98, 0]⟩ ⟨4, [2, 65, 98, 0]⟩ = ok true := by decide
/-- The test is case-sensitive. -/
example : isSubdomain ⟨6, [1, 119, 2, 65, 98, 0]⟩ ⟨4, [2, 97, 98, 0]⟩ = ok false := by decide

/-! ## C13 -/

/-- **C13.** `wdns_reverse_name` on a well-formed name, with a buffer of the name's length, produces
the wire form of the name with its labels reversed (never touching bytes outside the buffer). -/
theorem C13_reverse (n : Name) (rest : List UInt8) (h : WF n) :
    reverseName (wire n ++ rest) (wire n).length = ok (wire n.reverse) ∧ WF n.reverse := by
  have hwl := wire_length_labs n
  have hlen : n.length ≤ (labs n).length := by
    clear h hwl
    induction n with
    | nil => simp
    | cons l n ih => rw [labs_cons_length, List.length_cons]; omega
  have := reverseLoop_spec (src := wire n ++ rest) (L := (wire n).length) n 0 []
    ((wire n).length + 1) h.1 (by simp) (by simp [labs]) (by omega)
  refine ⟨?_, ?_, ?_⟩
  · simp only [labs, List.length_nil] at this
    rw [reverseName]
    have hrep : List.replicate (wire n).length (0 : UInt8) =
        List.replicate ((wire n).length - 1 - 0) 0 ++ wire [] := by
      rw [hwl, wire]; simp [List.replicate_succ']
    rw [hrep]
    have e0 : ((wire n).length : Int) - 1 = ((wire n).length : Int) - 1 - ((0 : Nat) : Int) := by omega
    rw [e0, this]
    rw [show (wire n).length - 1 - 0 - (labs n).length = 0 by omega]
    simp
  · intro l hm; exact h.1 l (List.mem_reverse.mp hm)
  · rw [wire_reverse_length]; exact h.2

/-- **C13 (involution).** Reversing twice gives the original name. -/
theorem C13_reverse_twice (n : Name) (h : WF n) :
    (reverseName (wire n) (wire n).length >>= fun r => reverseName r r.length) = ok (wire n) := by
  have h1 := C13_reverse n [] h
  rw [List.append_nil] at h1
  have h2 := C13_reverse n.reverse [] h1.2
  rw [List.append_nil, List.reverse_reverse] at h2
  rw [h1.1, ok_bind, h2.1]

/-- A case of `C13_reverse_twice`. -/
example : (reverseName [1, 119, 2, 65, 98, 0] 6 >>= fun r => reverseName r r.length) = ok [1, 119, 2, 65, 98, 0] :=
  C13_reverse_twice [[119], [65, 98]] (by decide)

/-- With a buffer too small by one octet the call does not fail with `wdns_res_out_of_bounds` but
writes in front of the buffer (documented error case not covered by C13's hypothesis). -/
theorem C13_reverse_short_buffer_violated : reverseName [1, 97, 0] 2 = ub := by decide

example : reverseName (wire [[119], [65, 98]]) 6 = ok [2, 65, 98, 1, 119, 0] := by decide

/-! ## C14 -/

/-- **C14.** `wdns_downcase_name` on any name object whose `len` bytes exist: replaces exactly the
octets A-Z by a-z, keeps length and the bytes behind, and is idempotent. -/
theorem C14_downcase (c : CName) (h : c.len ≤ c.data.length) :
    ∃ c', downcaseName c = ok c' ∧ c'.len = c.len ∧ c'.data.length = c.data.length ∧
      (∀ i, i < c.len → c'.data[i]? = c.data[i]?.map lower) ∧
      (∀ i, c.len ≤ i → c'.data[i]? = c.data[i]?) ∧
      downcaseName c' = ok c' := by
  have h1 := downcaseBytes_spec c.len c.data h
  refine ⟨⟨c.len, (c.data.take c.len).map lower ++ c.data.drop c.len⟩, by simp [downcaseName, h1], rfl,
    ?_, ?_, ?_, ?_⟩
  · simp; omega
  · intro i hi
    rw [List.getElem?_append_left (by simp; omega)]; simp [hi]
  · intro i hi
    rw [List.getElem?_append_right (by simp; omega)]; simp
    congr 1; omega
  · simp only [downcaseName]
    rw [downcaseBytes_spec _ _ (by simp; omega)]
    simp only [ok_bind, ok.injEq, CName.mk.injEq, true_and]
    rw [List.take_append_of_le_length (by simp; omega), List.drop_append_of_le_length (by simp; omega)]
    rw [List.take_of_length_le (by simp; omega), List.drop_eq_nil_of_le (by simp; omega)]
    simp [lower_lower, Function.comp_def]

/-- **C14 (names).** On a well-formed name the label structure is kept, the result is the
lower-cased name, and two names become equal exactly when they are equal ignoring ASCII case. -/
theorem C14_downcase_name (c : CName) (n : Name) (h : Holds c n) :
    ∃ c', downcaseName c = ok c' ∧ Holds c' (lowerName n) := by
  obtain ⟨hn, hl, hst⟩ := h
  have hle : c.len ≤ c.data.length := by rw [hl]; exact hst.length_le
  refine ⟨⟨c.len, (c.data.take c.len).map lower ++ c.data.drop c.len⟩, ?_, ?_, ?_, ?_⟩
  · simp [downcaseName, downcaseBytes_spec c.len c.data hle]
  · refine ⟨lowerName_ok hn.1, ?_⟩
    rw [← wire_lower n hn.1, List.length_map]; exact hn.2
  · rw [← wire_lower n hn.1, List.length_map]; exact hl
  · have : c.data.take c.len = wire n := by rw [hl]; exact (List.prefix_iff_eq_take.mp hst).symm
    rw [this, wire_lower n hn.1]; exact List.prefix_append _ _

/-- A case of `C14_downcase_name`. -/
example : ∃ c', downcaseName ⟨6, [1, 119, 2, 65, 98, 0]⟩ = ok c' ∧ Holds c' [[119], [97, 98]] :=
  C14_downcase_name ⟨6, [1, 119, 2, 65, 98, 0]⟩ [[119], [65, 98]] ⟨by decide, by decide, by decide⟩

theorem C14_downcase_equal_iff (m n : Name) (hm : WF m) (hn : WF n) :
    downcaseName ⟨(wire m).length, wire m⟩ = downcaseName ⟨(wire n).length, wire n⟩ ↔
      lowerName m = lowerName n := by
  have e : ∀ n : Name, WF n → downcaseName ⟨(wire n).length, wire n⟩ =
      ok ⟨(wire n).length, wire (lowerName n)⟩ := by
    intro n hn
    simp only [downcaseName]
    rw [downcaseBytes_spec _ _ (Nat.le_refl _)]
    simp only [ok_bind, List.take_length, List.drop_length, List.append_nil]
    rw [wire_lower n hn.1]
  have el : ∀ n : Name, WF n → (wire n).length = (wire (lowerName n)).length := by
    intro n hn; rw [← wire_lower n hn.1]; simp
  rw [e m hm, e n hn]
  simp only [ok.injEq, CName.mk.injEq]
  constructor
  · rintro ⟨_, h⟩
    exact wire_inj (lowerName_ok hm.1) (lowerName_ok hn.1) h
  · intro h
    rw [el m hm, el n hn, h]; exact ⟨rfl, rfl⟩

example : downcaseName ⟨4, [2, 65, 98, 0, 77]⟩ = ok ⟨4, [2, 97, 98, 0, 77]⟩ := by decide

end Wdns
