import Verif.Lemmas.Copy

/-!
# Properties C01 - C06: decompressing and copying names

`mem` is the object the pointers point into, `p`, `eop`, `src` are offsets in it; the message is
`mem[p, eop)`.  `cap` is the size of the caller's `dst`.
-/

namespace Wdns
open Outcome Spec

/-- `decide`-able test message: header byte, "www.example" + pointer. -/
def tMsg : List UInt8 :=
  [7] ++ [3, 99, 111, 109, 0] ++ [2, 65, 98, 0xc0, 1] ++ [0xc0, 6] ++ [0xc0, 13]

/-! ## C01 -/

/-- **C01.** Whatever the message, if `wdns_unpack_name` succeeds then `dst` holds exactly the wire
form of a well-formed name (labels of 1..63 octets, at most 255 octets) and `*sz` is its length. -/
theorem C01_unpacked_wellformed (cap : Nat) (mem : List UInt8) (p eop src : Nat)
    (dst : List UInt8) (sz : Nat)
    (h : unpackName cap mem p eop src = ok (dst, sz)) :
    ∃ n : Name, WF n ∧ dst = wire n ∧ sz = (wire n).length := by
  unfold unpackName at h
  split at h
  · simp at h
  obtain ⟨n, h1, h2, h3, h4, h5⟩ := unpackLoop_sound _ _ _ _ _ _ h rfl (by omega) (by omega)
  simp only [List.nil_append] at h1
  subst h1
  exact ⟨n, ⟨h3, h4⟩, rfl, h2⟩

example : unpackName 255 tMsg 0 15 11 = ok ([2, 65, 98, 3, 99, 111, 109, 0], 8) := by decide

/-! ## C02 -/

/-- **C02 (completeness, full strength).** If the octets of the message `mem[0, eop)` at `src` denote
(RFC 1035, strictly backward pointers) a well-formed name, `wdns_unpack_name` returns exactly it —
whatever follows the message in memory. -/
theorem C02_unpack_complete (cap : Nat) (mem : List UInt8) (p eop src : Nat) (n : Name)
    (hcap : 255 ≤ cap) (hp : p ≤ src) (hs : src < eop) (hm : eop ≤ mem.length)
    (hd : Denotes (mem.take eop) p src n) (hn : WF n) :
    unpackName cap mem p eop src = ok (wire n, (wire n).length) := by
  have hd' : Denotes (mem.take (eop + 1)) p src n := by
    have key : ∀ {i : Nat} {b : UInt8}, (mem.take eop)[i]? = some b →
        (mem.take (eop + 1))[i]? = some b := by
      intro i b h
      have := getElem?_some_lt h
      simp only [List.length_take] at this
      rw [getElem?_take_lt (by omega)] at h
      rw [getElem?_take_lt (by omega), h]
    clear hn hp hs
    induction hd with
    | root h => exact .root (key h)
    | @label o c n h1 h2 h3 h4 _ ih =>
      simp only [List.length_take] at h4
      have : ((mem.take eop).drop (o + 1)).take c.toNat =
          ((mem.take (eop + 1)).drop (o + 1)).take c.toNat := by
        rw [List.drop_take, List.drop_take, List.take_take, List.take_take,
          Nat.min_eq_left (by omega), Nat.min_eq_left (by omega)]
      rw [this]
      exact .label (key h1) h2 h3 (by simp; omega) ih
    | ptr h1 h2 h3 h4 _ ih => exact .ptr (key h1) h2 (key h3) h4 ih
  obtain ⟨f, hf⟩ := unpackLoop_complete hcap hd' [] 0 rfl (by simpa using hn.2)
  have hnh : unpackLoop cap mem p eop (unpackFuel eop) src [] 0 ≠ hang := by
    exact unpackLoop_no_hang _ _ _ _ (by omega) (by omega) (by unfold unpackFuel; omega)
  unfold unpackName
  rw [if_neg (by omega)]
  rcases Nat.le_total f (unpackFuel eop) with hle | hle
  · rw [unpackLoop_mono f _ _ _ (by rw [hf]; simp) _ hle, hf]; simp
  · rw [← unpackLoop_mono _ _ _ _ hnh _ hle, hf]; simp

/-- A case of `C02_unpack_complete`: an uncompressed name in the middle of a packet. -/
example : unpackName 255 [9, 1, 97, 0, 9] 0 5 1 = ok ([1, 97, 0], 3) :=
  C02_unpack_complete 255 [9, 1, 97, 0, 9] 0 5 1 [[97]] (by decide) (by decide) (by decide) (by decide)
    (by apply Denotes.label (c := 1) <;> try decide
        apply Denotes.root; decide) (by decide)

/-- **C02 (exactness), partial.** When no byte beyond the message is readable (`mem` is the message),
`wdns_unpack_name` succeeds exactly when the octets at `src` denote a well-formed name, and then
returns that name.  Missing: the case where the memory continues behind `eop`; there the code can read
the octet at `eop` (see `C02_unpack_exact_violated`). -/
theorem C02_unpack_exact_partial (cap : Nat) (msg : List UInt8) (p src : Nat)
    (dst : List UInt8) (sz : Nat) (hcap : 255 ≤ cap) (hp : p ≤ src) (hs : src < msg.length) :
    unpackName cap msg p msg.length src = ok (dst, sz) ↔
      ∃ n : Name, Denotes msg p src n ∧ WF n ∧ dst = wire n ∧ sz = (wire n).length := by
  constructor
  · intro h
    unfold unpackName at h
    rw [if_neg (by omega)] at h
    obtain ⟨n, h1, h2, h3, h4, h5⟩ := unpackLoop_sound _ _ _ _ _ _ h rfl (by omega) (by omega)
    simp only [List.nil_append] at h1
    subst h1
    rw [List.take_of_length_le (by omega)] at h5
    exact ⟨n, h5, ⟨h3, h4⟩, rfl, h2⟩
  · rintro ⟨n, hd, hn, rfl, rfl⟩
    exact C02_unpack_complete cap msg p _ src n hcap hp hs (Nat.le_refl _)
      (by rw [List.take_of_length_le (by omega)]; exact hd) hn

/-- **C02 (general exactness).** With arbitrary memory behind the message: success means exactly that
the octets up to and *including* the one at `eop` denote a well-formed name. -/
theorem C02_unpack_exact_overread (cap : Nat) (mem : List UInt8) (p eop src : Nat)
    (dst : List UInt8) (sz : Nat) (hcap : 255 ≤ cap) (hp : p ≤ src) (hs : src < eop) :
    unpackName cap mem p eop src = ok (dst, sz) ↔
      ∃ n : Name, Denotes (mem.take (eop + 1)) p src n ∧ WF n ∧ dst = wire n ∧
        sz = (wire n).length := by
  constructor
  · intro h
    unfold unpackName at h
    rw [if_neg (by omega)] at h
    obtain ⟨n, h1, h2, h3, h4, h5⟩ := unpackLoop_sound _ _ _ _ _ _ h rfl (by omega) (by omega)
    simp only [List.nil_append] at h1
    subst h1
    exact ⟨n, h5, ⟨h3, h4⟩, rfl, h2⟩
  · rintro ⟨n, hd, hn, rfl, rfl⟩
    obtain ⟨f, hf⟩ := unpackLoop_complete hcap hd [] 0 rfl (by simpa using hn.2)
    have hnh : unpackLoop cap mem p eop (unpackFuel eop) src [] 0 ≠ hang := by
      exact unpackLoop_no_hang _ _ _ _ (by omega) (by omega) (by unfold unpackFuel; omega)
    unfold unpackName
    rw [if_neg (by omega)]
    rcases Nat.le_total f (unpackFuel eop) with hle | hle
    · rw [unpackLoop_mono f _ _ _ (by rw [hf]; simp) _ hle, hf]; simp
    · rw [← unpackLoop_mono _ _ _ _ hnh _ hle, hf]; simp

/-- **C02 is violated** when bytes follow the message: the message `[1, 'a']` does not denote any
name, but with a zero octet behind it the call succeeds. -/
theorem C02_unpack_exact_violated :
    unpackName 255 [1, 97, 0] 0 2 0 = ok ([1, 97, 0], 3) ∧
      ¬ ∃ n, Denotes ([1, 97, 0].take 2) 0 0 n := by
  refine ⟨by decide, ?_⟩
  rintro ⟨n, h⟩
  cases h with
  | root h => simp at h
  | label h1 h2 h3 h4 h5 =>
    simp at h1; subst h1
    cases h5 <;> simp_all
  | ptr h1 h2 => simp at h1; subst h1; simp at h2

example : Denotes tMsg 0 11 [[65, 98], [99, 111, 109]] := by
  apply Denotes.ptr (hi := 0xc0) (lo := 6) <;> try decide
  apply Denotes.label (c := 2) <;> try decide
  apply Denotes.ptr (hi := 0xc0) (lo := 1) <;> try decide
  apply Denotes.label (c := 3) <;> try decide
  apply Denotes.root; decide

example : WF [[65, 98], [99, 111, 109]] := by decide

/-! ## C03 -/

/-- **C03.** `wdns_unpack_name` leaves its loop after at most `256 * (eop + 2)` iterations, on every
input: with any iteration budget from there on the outcome is the same and is not "still looping". -/
theorem C03_unpack_terminates (cap : Nat) (mem : List UInt8) (p eop src : Nat) :
    unpackName cap mem p eop src ≠ hang ∧
    ∀ budget, 256 * (eop + 2) ≤ budget → src < eop → p ≤ src →
      unpackLoop cap mem p eop budget src [] 0 = unpackName cap mem p eop src := by
  have hnh : src < eop → unpackLoop cap mem p eop (unpackFuel eop) src [] 0 ≠ hang := by
    intro h; exact unpackLoop_no_hang _ _ _ _ (by omega) (by omega) (by unfold unpackFuel; omega)
  unfold unpackName
  constructor
  · split
    · simp
    · exact hnh (by omega)
  · intro budget hb h1 h2
    rw [if_neg (by omega)]
    exact unpackLoop_mono _ _ _ _ (hnh h1) _ hb

/-- Non-vacuity of C03: a message with a pointer cycle (0 -> 2 -> 0). -/
example : unpackName 255 [0xc0, 2, 0xc0, 0] 0 4 2 = err .invalidCompressionPointer := by decide

/-! ## C04 -/

/-- **C04, partial.** If one byte behind the message is readable (`eop < mem.length`), then for every
message `wdns_unpack_name` neither reads outside `mem` nor writes beyond 255 bytes of `dst`, and its
outcome depends only on the bytes at `p .. eop` (inclusive).
Missing: the code may read the byte at `eop` itself (`C04_unpack_safe_violated`). -/
theorem C04_unpack_safe_partial (cap : Nat) (mem : List UInt8) (p eop src : Nat)
    (hcap : 255 ≤ cap) (hm : eop < mem.length) :
    (unpackName cap mem p eop src).Returns ∧
    ∀ mem' : List UInt8, eop ≤ mem'.length → (∀ i, p ≤ i → i ≤ eop → mem[i]? = mem'[i]?) →
      unpackName cap mem' p eop src = unpackName cap mem p eop src := by
  constructor
  · refine ⟨?_, (C03_unpack_terminates cap mem p eop src).1, ?_⟩
    · unfold unpackName
      split
      · simp
      · exact unpackLoop_safe hcap hm _ _ _ _ rfl (by omega) (by omega)
    · unfold unpackName
      split
      · simp
      · exact unpackLoop_no_abort _ _ _ _
  · intro mem' hm' h
    unfold unpackName
    split
    · rfl
    · exact (unpackLoop_local (by omega) hm' h _ _ _ _ (by omega) (by omega)).symm

/-- **C04 is violated**: the two-byte message `[1, 'a']` makes the code read the byte behind it, and
the answer depends on that byte. -/
theorem C04_unpack_safe_violated :
    unpackName 255 [1, 97] 0 2 0 = ub ∧
    unpackName 255 [1, 97, 0] 0 2 0 ≠ unpackName 255 [1, 97, 64] 0 2 0 := by decide

/-- **C04 (names that are really there).** If the message itself contains the whole name (or a
compression pointer is bad etc.: whenever the octets of the message alone decide the answer), no byte
behind the message matters: a successful decode inside the message is the same for every memory
behind it. -/
theorem C04_unpack_inside (cap : Nat) (mem mem' : List UInt8) (p eop src : Nat) (n : Name)
    (hcap : 255 ≤ cap) (hp : p ≤ src) (hs : src < eop) (hm : eop ≤ mem.length)
    (hm' : eop ≤ mem'.length) (he : mem.take eop = mem'.take eop)
    (hd : Denotes (mem.take eop) p src n) (hn : WF n) :
    unpackName cap mem p eop src = ok (wire n, (wire n).length) ∧
    unpackName cap mem' p eop src = ok (wire n, (wire n).length) :=
  ⟨C02_unpack_complete cap mem p eop src n hcap hp hs hm hd hn,
   C02_unpack_complete cap mem' p eop src n hcap hp hs hm' (he ▸ hd) hn⟩

example : (15 : Nat) < (tMsg ++ [9]).length := by decide

/-! ## C05 -/

theorem reaches_unpack {cap : Nat} {mem : List UInt8} {p eop : Nat} (hcap : 255 ≤ cap)
    {o ls o'} (h : Reaches (mem.take eop) p o ls o') : ∀ out total, o' < eop → total = out.length →
    total + (wire ls).length ≤ 255 →
    ∃ out', out'.length + 1 = total + (wire ls).length ∧ ∃ k, ∀ fuel,
      unpackLoop cap mem p eop (fuel + k) o out total =
      unpackLoop cap mem p eop fuel o' out' out'.length := by
  have key : ∀ {i : Nat} {b : UInt8}, (mem.take eop)[i]? = some b → i < eop ∧ i < mem.length ∧ mem[i]? = some b := by
    intro i b h
    have := getElem?_some_lt h
    simp only [List.length_take] at this
    rw [getElem?_take_lt (by omega)] at h
    exact ⟨by omega, by omega, h⟩
  induction h with
  | here =>
    intro out total _ ht hw
    exact ⟨out, by simp [wire]; omega, 0, fun fuel => by rw [ht]; rfl⟩
  | @label o c ls o' h1 h2 h3 h4 _ ih =>
    intro out total ho ht hw
    obtain ⟨_, _, h1⟩ := key h1
    simp only [List.length_take] at h4
    have hl := take_drop_length mem (o + 1) c.toNat (by omega)
    have he : ((mem.take eop).drop (o + 1)).take c.toNat = (mem.drop (o + 1)).take c.toNat := by
        rw [List.drop_take, List.take_take, Nat.min_eq_left (by omega)]
    rw [he, wire_cons_length, hl] at hw
    have hwp := wire_length_pos ls
    obtain ⟨out', e1, k, e2⟩ := ih (out ++ c :: (mem.drop (o + 1)).take c.toNat) (total + 1 + c.toNat) ho
      (by simp [hl]; omega) (by omega)
    refine ⟨out', ?_, k + 1, ?_⟩
    · rw [he, wire_cons_length, hl]; omega
    · intro fuel
      rw [← Nat.add_assoc, unpack_label h1 h2 h3, if_neg (by omega), if_neg (by omega), if_neg (by omega),
      if_neg (by omega), if_neg (by omega), if_neg (by omega), e2]
  | @ptr o hi lo ls o' h1 h2 h3 h4 _ ih =>
    intro out total ho ht hw
    obtain ⟨_, _, h1⟩ := key h1
    obtain ⟨_, _, h3⟩ := key h3
    obtain ⟨out', e1, k, e2⟩ := ih out total ho ht hw
    refine ⟨out', e1, k + 1, fun fuel => ?_⟩
    rw [← Nat.add_assoc, unpack_ptr h1 h2, if_neg (by omega)]
    simp only [h3]
    rw [if_neg (by omega), e2]

/-- **C05.** If decoding at `src` arrives (over labels that fit and strictly backward pointers) at a
complete compression pointer whose target is not strictly before the pointer, the call fails with
`wdns_res_invalid_compression_pointer`. -/
theorem C05_forward_pointer_rejected (cap : Nat) (mem : List UInt8) (p eop src : Nat)
    (ls : Name) (o : Nat) (hi lo : UInt8)
    (hcap : 255 ≤ cap) (hp : p ≤ src) (hs : src < eop)
    (hr : Reaches (mem.take eop) p src ls o) (hfit : (wire ls).length ≤ 255)
    (h1 : (mem.take eop)[o]? = some hi) (h2 : 192 ≤ hi.toNat) (h3 : (mem.take eop)[o + 1]? = some lo)
    (hbad : o ≤ p + ((hi.toNat % 64) * 256 + lo.toNat)) :
    unpackName cap mem p eop src = err .invalidCompressionPointer := by
  have l1 := getElem?_some_lt h1
  have l3 := getElem?_some_lt h3
  simp only [List.length_take] at l1 l3
  rw [getElem?_take_lt (by omega)] at h1 h3
  obtain ⟨out', e1, k, e2⟩ := reaches_unpack (cap := cap) hcap hr [] 0 (by omega) rfl (by simpa using hfit)
  have hend : ∀ fuel, unpackLoop cap mem p eop (fuel + 1) o out' out'.length =
      err .invalidCompressionPointer := by
    intro fuel
    rw [unpack_ptr h1 h2, if_neg (by omega)]
    simp only [h3]
    rw [if_pos (by omega)]
  have hb := (C03_unpack_terminates cap mem p eop src).2 (256 * (eop + 2) + 1 + k) (by omega) hs hp
  rw [← hb, e2, hend]

example : Reaches ([1, 97, 0xc0, 4, 0] : List UInt8) 0 0 [[97]] 2 :=
  .label (c := 1) (by decide) (by decide) (by decide) (by decide) .here
example : unpackName 255 [1, 97, 0xc0, 4, 0] 0 5 0 = err .invalidCompressionPointer := by decide
example : unpackName 255 [1, 97, 0xc0, 2, 0] 0 5 0 = err .invalidCompressionPointer := by decide

/-! ## C06 -/

/-- **C06 (verbatim).** A well-formed name stored uncompressed inside the message is returned octet
for octet by both functions. -/
theorem C06_uncompressed_verbatim (cap : Nat) (mem : List UInt8) (p eop src : Nat) (n : Name)
    (hcap : 255 ≤ cap) (hp : p ≤ src) (hm : eop ≤ mem.length) (hn : WF n)
    (hst : wire n <+: (mem.take eop).drop src) :
    unpackName cap mem p eop src = ok (wire n, (wire n).length) ∧
    copyUname cap mem p eop src = ok (wire n, (wire n).length) := by
  have hs : src < eop := by
    have h1 := prefix_drop_length hst (wire_ne_nil n)
    have h2 := wire_length_pos n
    simp only [List.length_take] at h1; omega
  have hst' : wire n <+: (mem.take (eop + 1)).drop src := by
    refine hst.trans ?_
    rw [List.drop_take, List.drop_take]
    exact List.take_prefix_take_left (by omega)
  constructor
  · exact C02_unpack_complete cap mem p eop src n hcap hp hs hm (denotes_of_stored hn.1 hst) hn
  · unfold copyUname
    rw [if_neg (by omega), copyLoop_complete hcap n src _ [] 0 hn.1 hst' rfl (by simpa using hn.2) (by omega)]
    simp

/-- **C06 (copy is decompression without pointers).** Whenever `wdns_copy_uname` succeeds, so does
`wdns_unpack_name`, with the same result; and the result is a well-formed name stored verbatim at
`src` (so no name containing a compression pointer is accepted). -/
theorem C06_copy_sound (cap : Nat) (mem : List UInt8) (p eop src : Nat) (dst : List UInt8) (sz : Nat)
    (h : copyUname cap mem p eop src = ok (dst, sz)) :
    unpackName cap mem p eop src = ok (dst, sz) ∧
    ∃ n, WF n ∧ dst = wire n ∧ sz = (wire n).length ∧ wire n <+: mem.drop src := by
  unfold copyUname at h
  split at h
  · simp at h
  rename_i hb
  constructor
  · have h2 := copyLoop_imp_unpack (p := p) _ _ _ _ _ h
    rw [← (C03_unpack_terminates cap mem p eop src).2 _ (Nat.le_refl _) (by omega) (by omega)]
    rw [unpackLoop_mono (eop + 2) _ _ _ (by rw [h2]; simp) _ (by omega), h2]
  · obtain ⟨n, h1, h2, h3, h4, h5⟩ := copyLoop_sound _ _ _ _ _ _ h rfl (by omega) (by omega)
    simp only [List.nil_append] at h1
    subst h1
    refine ⟨n, ⟨h3, h4⟩, rfl, h2, h5.trans ?_⟩
    rw [List.drop_take]; exact List.take_prefix _ _

/-- **C06 (pointers rejected).** If the labels stored at `src` are followed by an octet >= 192,
`wdns_copy_uname` fails with `wdns_res_invalid_length_octet`. -/
theorem C06_copy_rejects_pointer (cap : Nat) (mem : List UInt8) (p eop src : Nat) (ls : Name)
    (hi : UInt8) (hcap : 255 ≤ cap) (hp : p ≤ src) (hok : ∀ l ∈ ls, LabelOK l)
    (hfit : (wire ls).length ≤ 255) (hm : eop ≤ mem.length)
    (hst : (wire ls).dropLast ++ [hi] <+: (mem.take eop).drop src) (h192 : 192 ≤ hi.toNat) :
    copyUname cap mem p eop src = err .invalidLengthOctet := by
  have hs : src + (wire ls).length ≤ eop := by
    have h1 := prefix_drop_length hst (by simp)
    have h2 := wire_length_pos ls
    simp only [List.length_take, List.length_append, List.length_dropLast, List.length_singleton] at h1; omega
  unfold copyUname
  have := wire_length_pos ls
  rw [if_neg (by omega)]
  have key : ∀ ls src fuel out total, (∀ l ∈ ls, LabelOK l) →
      ((wire ls).dropLast ++ [hi] <+: (mem.take eop).drop src) → total = out.length →
      total + (wire ls).length ≤ 255 → src + (wire ls).length ≤ eop → eop - src < fuel →
      copyLoop cap mem eop fuel src out total = err .invalidLengthOctet := by
    intro ls
    induction ls with
    | nil =>
      intro src fuel out total _ hst ht hw hs hf
      simp only [wire, List.dropLast_singleton, List.nil_append] at hst
      rw [prefix_drop_cons] at hst
      obtain ⟨hst, _⟩ := hst
      have := getElem?_some_lt hst
      rw [getElem?_take_lt (by simp at this; omega)] at hst
      obtain ⟨f, rfl⟩ : ∃ f, fuel = f + 1 := ⟨fuel - 1, by omega⟩
      exact copy_bad hst (by omega)
    | cons l n ih =>
      intro src fuel out total hok hst ht hw hs hf
      have hne : l ++ wire n ≠ [] := by simp [wire_ne_nil]
      rw [wire, List.dropLast_cons_of_ne_nil hne, List.dropLast_append_of_ne_nil (wire_ne_nil n),
        List.cons_append, List.append_assoc, prefix_drop_cons, prefix_drop_append] at hst
      obtain ⟨h1, h2, h3⟩ := hst
      have hl := hok l (by simp)
      have e := ofNat_label_toNat hl
      have hwp := wire_length_pos n
      rw [wire_cons_length] at hw hs
      rw [getElem?_take_lt (by omega)] at h1
      obtain ⟨f, rfl⟩ : ∃ f, fuel = f + 1 := ⟨fuel - 1, by omega⟩
      have := hl.1
      have h2' := prefix_drop_iff.mp h2
      rw [List.drop_take, List.take_take, Nat.min_eq_left (by omega)] at h2'
      rw [copy_label h1 (by omega) (by rw [e]; exact hl.2), e, h2', if_neg (by omega), if_neg (by omega),
        if_neg (by omega), if_neg (by omega), if_neg (by omega), if_neg (by omega),
        ih _ _ _ _ (fun l hm => hok l (by simp [hm])) h3 (by simp; omega) (by omega) (by omega) (by omega)]
  exact key ls src _ [] 0 hok hst rfl (by simpa using hfit) hs (by omega)

/-- A case of `C06_copy_rejects_pointer`. -/
example : copyUname 255 [7, 2, 65, 98, 0xc0, 0] 0 6 1 = err .invalidLengthOctet :=
  C06_copy_rejects_pointer 255 [7, 2, 65, 98, 0xc0, 0] 0 6 1 [[65, 98]] 0xc0 (by decide) (by decide) (by simp [LabelOK]) (by decide) (by decide) (by decide) (by decide)

/-- `wdns_copy_uname` always returns and is memory safe when one byte behind the buffer is readable. -/
theorem C06_copy_returns (cap : Nat) (mem : List UInt8) (p eop src : Nat)
    (hcap : 255 ≤ cap) (hm : eop < mem.length) :
    copyUname cap mem p eop src ≠ ub ∧ copyUname cap mem p eop src ≠ hang := by
  unfold copyUname
  split
  · simp
  · exact ⟨copyLoop_safe hcap hm _ _ _ _ rfl (by omega) (by omega),
      copyLoop_no_hang _ _ _ _ (by omega) (by omega)⟩

example : wire [[65, 98]] <+: (([7, 2, 65, 98, 0, 1] : List UInt8).take 5).drop 1 := by decide
example : copyUname 255 [7, 2, 65, 98, 0, 1] 0 5 1 = ok ([2, 65, 98, 0], 4) := by decide
example : copyUname 255 [7, 2, 65, 98, 0xc0, 0] 0 6 1 = err .invalidLengthOctet := by decide

end Wdns
