import Verif.Props.Message
import Verif.Props.Resources

/-! C34, C35: packets that a plain scan shows to be harmless. -/

namespace Wdns

/-- Somewhere in the packet are the octets of type SVCB (64) or HTTPS (65) and class IN, and ten octets or more after them the octets `key`,
`l` (two octets each) that a SvcParam of this key and length would begin with.  (Whether they are the header of a record and of a SvcParam does
not matter: this is a scan, not a parse.) -/
def Spec.SvcHead (pkt : List UInt8) (key l : Nat) : Prop :=
  ∃ j i, j + 10 ≤ i ∧ i + 4 ≤ pkt.length ∧ (Spec.u16At pkt j = 64 ∨ Spec.u16At pkt j = 65) ∧ Spec.u16At pkt (j + 2) = 1 ∧
    Spec.u16At pkt i = key ∧ Spec.u16At pkt (i + 2) = l

open Outcome Spec

theorem be16_of_rd {mem : List UInt8} {i : Nat} {a b : UInt8} (h0 : rd mem i = ok a) (h1 : rd mem (i + 1) = ok b) : u16At mem i = be16 a b := u16At_of_rd h0 h1

theorem pCopy_ok {mem : List UInt8} {st st' : PState} {x : Nat} (h : pCopy mem st x = ok st') : x ≤ st.bytes ∧ st'.src = st.src + x ∧ st'.bytes = st.bytes - x := by
  unfold pCopy at h
  split at h
  · simp at h
  · obtain ⟨bs, hb, h⟩ := bind_eq_ok.mp h
    simp only [ok.injEq] at h
    subst h
    exact ⟨by omega, rfl, rfl⟩

/-- A SvcParam list that is not left contains a parameter of length 65532. -/
theorem pSvcparams_hang {mem : List UInt8} : ∀ fuel st, st.bytes < fuel →
    (∀ i, st.src ≤ i → i + 4 ≤ st.src + st.bytes → u16At mem (i + 2) = 65532 → u16At mem i = 2 ∨ u16At mem i = 3 ∨ u16At mem i = 6 ∨ u16At mem i = 65535) →
    pSvcparams mem fuel st ≠ hang
  | 0, _, h, _ => by omega
  | fuel + 1, st, hf, hno => by
    rw [pSvcparams]
    split
    · split
      · simp
      · apply bind_ne_hang (rd_ne_hang _ _); intro k0 hk0
        apply bind_ne_hang (rd_ne_hang _ _); intro k1 hk1
        apply bind_ne_hang (rd_ne_hang _ _); intro l0 hl0
        apply bind_ne_hang (rd_ne_hang _ _); intro l1 hl1
        have hk := u16At_of_rd hk0 hk1
        have hl := u16At_of_rd hl0 hl1
        dsimp only
        split
        · simp
        · apply bind_ne_hang (svcparamKeyValidate_ne_hang _ _ _ _)
          intro v hv
          split
          · simp
          · apply bind_ne_hang (pCopy_ne_hang _ _ _)
            intro st' hst
            obtain ⟨h1, h2, h3⟩ := pCopy_ok hst
            have hpos : (2 + 2 + be16 l0 l1) % 65536 ≠ 0 := by
              intro h0
              have h16 : be16 l0 l1 < 65536 := by
                rw [← hl]; exact u16At_lt _ _
              have := hno st.src (Nat.le_refl _) (by omega) (by rw [hl]; omega)
              rw [hk] at this
              have hlen : be16 l0 l1 = 65532 := by omega
              rw [hlen] at hv
              rcases this with h | h | h | h <;> rw [h] at hv <;> simp [svcparamKeyValidate] at hv <;> simp_all
            exact pSvcparams_hang fuel st' (by omega) (fun i hi hi' => hno i (by omega) (by omega))
    · simp

theorem pField_hang {mem : List UInt8} {p eop : Nat} {t : Rdf} {st : PState}
    (hno : t = .svcparams → ∀ i, st.src ≤ i → i + 4 ≤ st.src + st.bytes → u16At mem (i + 2) = 65532 →
      u16At mem i = 2 ∨ u16At mem i = 3 ∨ u16At mem i = 6 ∨ u16At mem i = 65535) : pField mem p eop t st ≠ hang := by
  have hname : (unpackName maxlenName mem p eop st.src >>= fun x => skipName mem st.src eop >>= fun y =>
      if st.bytes < y.2 then (err .outOfBounds : Outcome PState) else ok ⟨y.1, st.bytes - y.2, st.out ++ x.1.take x.2⟩) ≠ hang := by
    apply bind_ne_hang (C03_unpack_terminates _ _ _ _ _).1
    intro a _
    apply bind_ne_hang (skipName_ne_hang _ _ _)
    intro b _
    split <;> simp
  cases t <;> simp only [pField]
  case name => exact hname
  case uname => exact hname
  case repstring => exact pRepstring_ne_hang _ _ (by omega)
  case typeBitmap => exact pBitmap_ne_hang _ _ (by omega)
  case svcparams => exact pSvcparams_hang _ _ (by omega) (hno rfl)
  case ipv6prefix =>
    apply bind_ne_hang (rd_ne_hang _ _)
    intro a _
    split
    · simp
    · exact pCopy_ne_hang _ _ _
  case string => exact bind_ne_hang (rd_ne_hang _ _) (fun a _ => pCopy_ne_hang _ _ _)
  case salt => exact bind_ne_hang (rd_ne_hang _ _) (fun a _ => pCopy_ne_hang _ _ _)
  case hash => exact bind_ne_hang (rd_ne_hang _ _) (fun a _ => pCopy_ne_hang _ _ _)
  all_goals exact pCopy_ne_hang _ _ _

/-- A field stays inside the rdata. -/
theorem pField_window {mem : List UInt8} {p eop : Nat} {t : Rdf} {st st' : PState} (h64 : eop < 2 ^ 64) (h : pField mem p eop t st = ok st') :
    st'.src + st'.bytes = st.src + st.bytes ∧ st.src ≤ st'.src := by
  by_cases hN : IsName t
  · obtain ⟨n, _, _, _, h3, h4, _⟩ := name_step (src := st.src) (b := st.bytes) (out := st.out) h64 hN h
    exact ⟨h3, h4⟩
  · have h1 := (pField_copied hN h).pos
    have h2 := (pField_copied hN h).le
    exact ⟨h1, by omega⟩

theorem pFields_hang {mem : List UInt8} {p eop : Nat} (h64 : eop < 2 ^ 64) : ∀ ts st,
    (Rdf.svcparams ∈ ts → ∀ i, st.src ≤ i → i + 4 ≤ st.src + st.bytes → u16At mem (i + 2) = 65532 →
      u16At mem i = 2 ∨ u16At mem i = 3 ∨ u16At mem i = 6 ∨ u16At mem i = 65535) → pFields mem p eop ts st ≠ hang
  | [], st, _ => by simp [pFields]
  | t :: ts, st, hno => by
    rw [pFields]
    split
    · simp
    · apply bind_ne_hang (pField_hang (fun e => hno (e ▸ List.mem_cons_self)))
      intro st' h
      obtain ⟨h1, h2⟩ := pField_window h64 h
      exact pFields_hang h64 ts st' (fun hm i hi hi' => hno (List.mem_cons_of_mem _ hm) i (by omega) (by omega))

theorem svc_class {ty cls : Nat} {d : Descr} (hd : recordDescr ty = some d) (ha : d.applies cls = true) (hm : Rdf.svcparams ∈ d.types) :
    (ty = 64 ∨ ty = 65) ∧ cls = 1 := by
  obtain ⟨h1, h2⟩ := (descr_facts hd).2.2.1 hm
  refine ⟨h1, ?_⟩
  unfold Descr.applies at ha
  rw [h2] at ha
  have : 1 = cls := by simpa using ha
  exact this.symm

theorem parseRdata_hang {mem : List UInt8} {p eop o rdlen ty cls : Nat} (h64 : eop < 2 ^ 64)
    (hno : ty = 64 ∨ ty = 65 → cls = 1 → ∀ i, o ≤ i → i + 4 ≤ o + rdlen → u16At mem (i + 2) = 65532 →
      u16At mem i = 2 ∨ u16At mem i = 3 ∨ u16At mem i = 6 ∨ u16At mem i = 65535) : parseRdata mem p eop o rdlen ty cls ≠ hang := by
  unfold parseRdata
  dsimp only
  split
  · exact bind_ne_hang (pCopy_ne_hang _ _ _) (fun _ _ => by simp)
  · rename_i d hd
    by_cases ha : d.applies cls = true
    · rw [if_pos ha]
      apply bind_ne_hang
      · apply pFields_hang h64
        intro hm i hi hi'
        obtain ⟨h1, h2⟩ := svc_class hd ha hm
        exact hno h1 h2 i hi hi'
      · intro st _; split <;> simp
    · rw [if_neg ha]
      exact bind_ne_hang (pCopy_ne_hang _ _ _) (fun _ _ => by simp)

theorem u16At_window {mem : List UInt8} {len i : Nat} (h : i + 1 < len) : u16At (mem.take len) i = u16At mem i := u16At_take h

theorem parseMessageRr_hang {sec : Nat} {mem : List UInt8} {p eop o : Nat} (hm : eop ≤ mem.length) (h64 : eop < 2 ^ 64)
    (hno : ∀ key, SvcHead (mem.take eop) key 65532 → key = 2 ∨ key = 3 ∨ key = 6 ∨ key = 65535) : parseMessageRr sec mem p eop o ≠ hang := by
  unfold parseMessageRr
  apply bind_ne_hang (C03_unpack_terminates _ _ _ _ _).1
  rintro ⟨nm, len⟩ _
  apply bind_ne_hang (skipName_ne_hang _ _ _)
  rintro ⟨src, k⟩ _
  dsimp only
  split
  · simp
  · apply bind_ne_hang (rd_ne_hang _ _); intro t0 ht0
    apply bind_ne_hang (rd_ne_hang _ _); intro t1 ht1
    apply bind_ne_hang (rd_ne_hang _ _); intro c0 hc0
    apply bind_ne_hang (rd_ne_hang _ _); intro c1 hc1
    have ht := u16At_of_rd ht0 ht1
    have hc := u16At_of_rd hc0 hc1
    split
    · simp
    · iterate 6 (apply bind_ne_hang (rd_ne_hang _ _); intro _ _)
      split
      · simp
      · apply bind_ne_hang
        · apply parseRdata_hang h64
          intro hty hcl i hi hi' h
          rw [← ht] at hty
          rw [← hc] at hcl
          refine hno _ ⟨src, i, hi, ?_, ?_, ?_, ?_, ?_⟩
          · rw [List.length_take]; omega
          · rw [u16At_window (by omega)]; exact hty
          · rw [u16At_window (by omega)]; exact hcl
          · rw [u16At_window (by omega)]
          · rw [u16At_window (by omega)]; exact h
        · intro _ _; simp

theorem readSec_hang {sec : Nat} {mem : List UInt8} {len : Nat} (h : ∀ o, parseMessageRr sec mem 0 len o ≠ hang) : ∀ n p, readSec sec mem len n p ≠ hang
  | 0, p => by simp [readSec]
  | n + 1, p => by
    rw [readSec]
    split
    · simp
    · apply bind_ne_hang (h _)
      rintro ⟨rr, sz⟩ _
      apply bind_ne_hang (readSec_hang h _ _)
      rintro ⟨a, b⟩ _
      simp

theorem readAll_hang {mem : List UInt8} {len : Nat} (h : ∀ sec o, parseMessageRr sec mem 0 len o ≠ hang) : ∀ secs p, readAll mem len secs p ≠ hang
  | [], p => by simp [readAll]
  | (sec, c) :: secs, p => by
    rw [readAll]
    apply bind_ne_hang (readSec_hang (h sec) _ _)
    rintro ⟨a, b⟩ _
    apply bind_ne_hang (readAll_hang h _ _)
    rintro _ _
    simp

/-- **C34, partial.** A packet in which no SVCB/HTTPS-like octets are followed by the octets of a SvcParam with length 0xFFFC is parsed in finitely many steps
(as is one in which all those have the key 2, 3, 6 or 65535).  Missing (and false): the rest. -/
theorem C34_terminates_scan_partial (mem : List UInt8) (len : Nat) (hm : len ≤ mem.length) (h64 : len < 2 ^ 64)
    (hno : ∀ key, SvcHead (mem.take len) key 65532 → key = 2 ∨ key = 3 ∨ key = 6 ∨ key = 65535) : parseMessage mem len ≠ hang := by
  have := readAll_hang (mem := mem) (len := len) (fun sec o => parseMessageRr_hang hm h64 hno) (headerSecs mem) 12
  rcases parseMessage_eq hm with ⟨_, h⟩ | ⟨_, ⟨_, _, _, h, _⟩ | ⟨_, _, h⟩ | ⟨_, h⟩ | ⟨h, _⟩ | ⟨_, h⟩⟩
  · simp [h]
  · simp [h]
  · simp [h]
  · simp [h]
  · exact absurd h this
  · simp [h]

/-- The scan finds nothing in the sample message although it has records of several types. -/
example : parseMessage sampleMsg 46 ≠ hang :=
  C34_terminates_scan_partial sampleMsg 46 (by decide) (by decide) (by
    rintro key ⟨j, i, h1, h2, h3, h4, h5, h6⟩
    have hall : ∀ j < 46, ¬ (u16At (sampleMsg.take 46) j = 64 ∨ u16At (sampleMsg.take 46) j = 65) := by decide +kernel
    exact absurd h3 (hall j (by have : (sampleMsg.take 46).length = 46 := by decide
                                omega)))

/-! ## C35 -/

/-- `x` and `x'` are the same and no undefined behaviour. -/
structure Same {α} (x x' : Outcome α) : Prop where
  eq : x = x'
  safe : x ≠ ub

theorem Same.bind {α β} {x x' : Outcome α} {f f' : α → Outcome β} (hx : Same x x') (hf : ∀ a, x = ok a → Same (f a) (f' a)) :
    Same (x >>= f) (x' >>= f') := by
  obtain ⟨rfl, h⟩ := hx
  cases x with
  | ok a => exact hf a rfl
  | ub => exact absurd rfl h
  | err r => exact ⟨rfl, by simp⟩
  | hang => exact ⟨rfl, by simp⟩
  | abort => exact ⟨rfl, by simp⟩

theorem Same.ite {α} {c : Prop} [Decidable c] {x x' y y' : Outcome α} (hx : c → Same x x') (hy : ¬ c → Same y y') :
    Same (if c then x else y) (if c then x' else y') := by
  by_cases h : c
  · rw [if_pos h, if_pos h]; exact hx h
  · rw [if_neg h, if_neg h]; exact hy h

theorem Same.err {α} (r : Res) : Same (err r : Outcome α) (err r) := ⟨rfl, by simp⟩
theorem Same.ok {α} (a : α) : Same (ok a) (ok a) := ⟨rfl, by simp⟩

theorem bind_ne_ub {α β} {x : Outcome α} {f : α → Outcome β} (hx : x ≠ ub) (hf : ∀ a, x = ok a → f a ≠ ub) :
    (x >>= f) ≠ ub := by cases x <;> simp_all

theorem skipLoop_safe {mem : List UInt8} {eop : Nat} (hm : eop < mem.length) : ∀ fuel src, skipLoop mem eop fuel src ≠ ub
  | 0, src => by simp [skipLoop]
  | fuel + 1, src => by
    rw [skipLoop]
    split
    · rw [rd_of_lt (by omega), ok_bind]
      split
      · simp
      · split
        · simp
        · exact skipLoop_safe hm fuel _
    · simp

theorem skipName_safe {mem : List UInt8} {o eop : Nat} (hm : eop < mem.length) : skipName mem o eop ≠ ub := by
  unfold skipName
  exact bind_ne_ub (skipLoop_safe hm _ _) (fun _ _ => by simp)

section
variable {mem mem' : List UInt8} {eop : Nat} (h : ∀ i, i ≤ eop → mem[i]? = mem'[i]?) (hm : eop < mem.length) (hm' : eop < mem'.length)
include h hm hm'

theorem rd_same {i : Nat} (hi : i ≤ eop) : Same (rd mem i) (rd mem' i) := by
  refine ⟨rd_local h hi, ?_⟩
  rw [rd_of_lt (by omega)]; simp

theorem pCopy_same {st : PState} (hs : st.src + st.bytes ≤ eop) (x : Nat) : Same (pCopy mem st x) (pCopy mem' st x) := by
  refine ⟨pCopy_local h (by omega) (by omega) st hs x, ?_⟩
  unfold pCopy
  split
  · simp
  · rw [rdN_ok (by omega)]; simp

theorem pRepstring_same : ∀ fuel st, st.src + st.bytes ≤ eop → Same (pRepstring mem fuel st) (pRepstring mem' fuel st)
  | 0, _, _ => ⟨rfl, by simp [pRepstring]⟩
  | fuel + 1, st, hs => by
    rw [pRepstring, pRepstring]
    refine .ite (fun hb => ?_) (fun _ => .ok _)
    refine (rd_same h hm hm' (by omega)).bind fun c _ => ?_
    refine (pCopy_same h hm hm' hs _).bind fun st' hst => ?_
    exact pRepstring_same fuel st' (by rw [pCopy_sum hst]; exact hs)

theorem pBitmap_same : ∀ fuel st, st.src + st.bytes ≤ eop → Same (pBitmap mem fuel st) (pBitmap mem' fuel st)
  | 0, _, _ => ⟨rfl, by simp [pBitmap]⟩
  | fuel + 1, st, hs => by
    rw [pBitmap, pBitmap]
    refine .ite (fun hb => ?_) (fun _ => .ok _)
    refine (rd_same h hm hm' (by omega)).bind fun c _ => ?_
    refine .ite (fun _ => .err _) (fun _ => ?_)
    refine .ite (fun _ => ?_) (fun _ => .err _)
    refine (pCopy_same h hm hm' hs _).bind fun st' hst => ?_
    exact pBitmap_same fuel st' (by rw [pCopy_sum hst]; exact hs)

theorem alpnLoop_same {val valLen : Nat} (hv : val + valLen ≤ eop) : ∀ fuel i, Same (alpnLoop mem val valLen fuel i) (alpnLoop mem' val valLen fuel i)
  | 0, _ => ⟨rfl, by simp [alpnLoop]⟩
  | fuel + 1, i => by
    rw [alpnLoop, alpnLoop]
    refine .ite (fun hb => ?_) (fun _ => .ok _)
    refine (rd_same h hm hm' (by omega)).bind fun c _ => ?_
    exact alpnLoop_same hv fuel _

theorem svcparamKeyValidate_same {val valLen key : Nat} (hv : key = 1 → val + valLen ≤ eop) :
    Same (svcparamKeyValidate mem key valLen val) (svcparamKeyValidate mem' key valLen val) := by
  by_cases hk : key = 1
  · subst hk
    simp only [svcparamKeyValidate, if_true, show ¬ (1 = 0) by decide, if_false]
    refine .ite (fun _ => .ok _) (fun _ => ?_)
    exact (alpnLoop_same h hm hm' (hv rfl) _ _).bind fun i _ => .ok _
  · simp only [svcparamKeyValidate, hk, if_false]
    repeat (refine .ite (fun _ => .ok _) (fun _ => ?_))
    exact .ok _

theorem pSvcparams_same : ∀ fuel st, st.src + st.bytes ≤ eop →
    (∀ i, st.src ≤ i → i + 4 ≤ st.src + st.bytes → u16At mem i = 1 → u16At mem (i + 2) < 65532) →
    Same (pSvcparams mem fuel st) (pSvcparams mem' fuel st)
  | 0, _, _, _ => ⟨rfl, by simp [pSvcparams]⟩
  | fuel + 1, st, hs, hno => by
    rw [pSvcparams, pSvcparams]
    refine .ite (fun hb => ?_) (fun _ => .ok _)
    refine .ite (fun _ => .err _) (fun h4 => ?_)
    refine (rd_same h hm hm' (by omega)).bind fun k0 hk0 => ?_
    refine (rd_same h hm hm' (by omega)).bind fun k1 hk1 => ?_
    refine (rd_same h hm hm' (by omega)).bind fun l0 hl0 => ?_
    refine (rd_same h hm hm' (by omega)).bind fun l1 hl1 => ?_
    have hk := u16At_of_rd hk0 hk1
    have hl := u16At_of_rd hl0 hl1
    dsimp only
    refine .ite (fun _ => .err _) (fun hkv => ?_)
    refine (svcparamKeyValidate_same h hm hm' ?_).bind fun v hv => ?_
    · intro h1
      have := hno st.src (Nat.le_refl _) (by omega) (by rw [hk, h1])
      rw [hl] at this
      rw [Nat.mod_eq_of_lt (by omega)] at hkv
      omega
    refine .ite (fun _ => .err _) (fun _ => ?_)
    refine (pCopy_same h hm hm' hs _).bind fun st' hst => ?_
    obtain ⟨h1, h2, h3⟩ := pCopy_ok hst
    exact pSvcparams_same fuel st' (by omega) (fun i hi hi' => hno i (by omega) (by omega))

theorem pField_same {p : Nat} {t : Rdf} {st : PState} (hb : st.bytes ≠ 0) (hs : st.src + st.bytes ≤ eop)
    (hno : t = .svcparams → ∀ i, st.src ≤ i → i + 4 ≤ st.src + st.bytes → u16At mem i = 1 → u16At mem (i + 2) < 65532) :
    Same (pField mem p eop t st) (pField mem' p eop t st) := by
  have hname : Same (unpackName maxlenName mem p eop st.src >>= fun x => skipName mem st.src eop >>= fun y =>
      if st.bytes < y.2 then (err .outOfBounds : Outcome PState) else ok ⟨y.1, st.bytes - y.2, st.out ++ x.1.take x.2⟩)
      (unpackName maxlenName mem' p eop st.src >>= fun x => skipName mem' st.src eop >>= fun y =>
      if st.bytes < y.2 then (err .outOfBounds : Outcome PState) else ok ⟨y.1, st.bytes - y.2, st.out ++ x.1.take x.2⟩) := by
    obtain ⟨hr, hloc⟩ := C04_unpack_safe_partial maxlenName mem p eop st.src (by decide) hm
    have hu : Same (unpackName maxlenName mem p eop st.src) (unpackName maxlenName mem' p eop st.src) :=
      ⟨(hloc mem' (by omega) (fun i _ hi => h i hi)).symm, hr.1⟩
    refine hu.bind fun a _ => ?_
    refine Same.bind ⟨skipName_local h _, ?_⟩ fun b _ => .ite (fun _ => .err _) (fun _ => .ok _)
    exact skipName_safe hm
  cases t <;> simp only [pField]
  case name => exact hname
  case uname => exact hname
  case repstring => exact pRepstring_same h hm hm' _ _ hs
  case typeBitmap => exact pBitmap_same h hm hm' _ _ hs
  case svcparams => exact pSvcparams_same h hm hm' _ _ hs (hno rfl)
  case ipv6prefix =>
    refine (rd_same h hm hm' (by omega)).bind fun c _ => ?_
    exact .ite (fun _ => .err _) (fun _ => pCopy_same h hm hm' hs _)
  case string => exact (rd_same h hm hm' (by omega)).bind fun c _ => pCopy_same h hm hm' hs _
  case salt => exact (rd_same h hm hm' (by omega)).bind fun c _ => pCopy_same h hm hm' hs _
  case hash => exact (rd_same h hm hm' (by omega)).bind fun c _ => pCopy_same h hm hm' hs _
  all_goals exact pCopy_same h hm hm' hs _

theorem pFields_same {p : Nat} (h64 : eop < 2 ^ 64) : ∀ ts st, st.src + st.bytes ≤ eop →
    (Rdf.svcparams ∈ ts → ∀ i, st.src ≤ i → i + 4 ≤ st.src + st.bytes → u16At mem i = 1 → u16At mem (i + 2) < 65532) →
    Same (pFields mem p eop ts st) (pFields mem' p eop ts st)
  | [], st, _, _ => .ok _
  | t :: ts, st, hs, hno => by
    rw [pFields, pFields]
    refine .ite (fun _ => .ok _) (fun hb => ?_)
    refine (pField_same h hm hm' hb hs (fun e => hno (e ▸ List.mem_cons_self))).bind fun st' hst => ?_
    obtain ⟨h1, h2⟩ := pField_window h64 hst
    exact pFields_same h64 ts st' (by omega) (fun hm i hi hi' => hno (List.mem_cons_of_mem _ hm) i (by omega) (by omega))

theorem parseRdata_same {p o rdlen ty cls : Nat} (h64 : eop < 2 ^ 64) (hs : o + rdlen ≤ eop)
    (hno : ty = 64 ∨ ty = 65 → cls = 1 → ∀ i, o ≤ i → i + 4 ≤ o + rdlen → u16At mem i = 1 → u16At mem (i + 2) < 65532) :
    Same (parseRdata mem p eop o rdlen ty cls) (parseRdata mem' p eop o rdlen ty cls) := by
  unfold parseRdata
  dsimp only
  cases hd : recordDescr ty with
  | none => exact (pCopy_same h hm hm' hs _).bind fun _ _ => .ok _
  | some d =>
    simp only
    by_cases ha : d.applies cls = true
    · simp only [ha, if_true]
      refine (pFields_same h hm hm' h64 _ _ hs ?_).bind fun st _ => ?_
      · intro hmm i hi hi'
        obtain ⟨h1, h2⟩ := svc_class hd ha hmm
        exact hno h1 h2 i hi hi'
      · by_cases hb : st.bytes ≠ 0
        · simp only [hb, not_false_eq_true, ne_eq, if_true]; exact .err _
        · simp only [hb, if_false]; exact .ok _
    · simp only [ha]
      exact (pCopy_same h hm hm' hs _).bind fun _ _ => .ok _

theorem parseMessageRr_same {sec p o : Nat} (h64 : eop < 2 ^ 64) (hno : ∀ l, SvcHead (mem.take eop) 1 l → l < 65532) :
    Same (parseMessageRr sec mem p eop o) (parseMessageRr sec mem' p eop o) := by
  unfold parseMessageRr
  obtain ⟨hr, hloc⟩ := C04_unpack_safe_partial maxlenName mem p eop o (by decide) hm
  have hu : Same (unpackName maxlenName mem p eop o) (unpackName maxlenName mem' p eop o) :=
    ⟨(hloc mem' (by omega) (fun i _ hi => h i hi)).symm, hr.1⟩
  refine hu.bind ?_
  rintro ⟨nm, len⟩ hun
  have ho : o < eop := by
    unfold unpackName at hun
    split at hun
    · simp at hun
    · omega
  refine Same.bind ⟨skipName_local h _, skipName_safe hm⟩ ?_
  rintro ⟨src, k⟩ _
  dsimp only
  refine .ite (fun _ => .err _) (fun h1 => ?_)
  refine (rd_same h hm hm' (by omega)).bind fun t0 ht0 => ?_
  refine (rd_same h hm hm' (by omega)).bind fun t1 ht1 => ?_
  refine (rd_same h hm hm' (by omega)).bind fun c0 hc0 => ?_
  refine (rd_same h hm hm' (by omega)).bind fun c1 hc1 => ?_
  have ht := u16At_of_rd ht0 ht1
  have hc := u16At_of_rd hc0 hc1
  refine .ite (fun _ => .ok _) (fun h2 => ?_)
  refine (rd_same h hm hm' (by omega)).bind fun _ _ => ?_
  refine (rd_same h hm hm' (by omega)).bind fun _ _ => ?_
  refine (rd_same h hm hm' (by omega)).bind fun _ _ => ?_
  refine (rd_same h hm hm' (by omega)).bind fun _ _ => ?_
  refine (rd_same h hm hm' (by omega)).bind fun _ _ => ?_
  refine (rd_same h hm hm' (by omega)).bind fun _ _ => ?_
  refine .ite (fun _ => .err _) (fun h3 => ?_)
  refine (parseRdata_same h hm hm' h64 (by omega) ?_).bind fun _ _ => .ok _
  intro hty hcl i hi hi' hk
  rw [← ht] at hty
  rw [← hc] at hcl
  refine hno _ ⟨src, i, hi, ?_, ?_, ?_, ?_, ?_⟩
  · rw [List.length_take]; omega
  · rw [u16At_window (by omega)]; exact hty
  · rw [u16At_window (by omega)]; exact hcl
  · rw [u16At_window (by omega)]; exact hk
  · rw [u16At_window (by omega)]

end

theorem parseSection_congr {sec : Nat} {mem mem' : List UInt8} {len : Nat} (h : ∀ o, parseMessageRr sec mem 0 len o = parseMessageRr sec mem' 0 len o) :
    ∀ n st, parseSection sec mem len n st = parseSection sec mem' len n st
  | 0, _ => rfl
  | n + 1, st => by
    simp only [parseSection, h, parseSection_congr h n]

theorem parseSections_congr {mem mem' : List UInt8} {len : Nat} (h : ∀ sec o, parseMessageRr sec mem 0 len o = parseMessageRr sec mem' 0 len o) :
    ∀ secs p hdr done, parseSections mem len secs p hdr done = parseSections mem' len secs p hdr done
  | [], _, _, _ => rfl
  | (sec, c) :: secs, p, hdr, done => by
    simp only [parseSections, parseSection_congr (h sec), parseSections_congr h secs]

theorem readSec_safe {sec : Nat} {mem : List UInt8} {len : Nat} (h : ∀ o, parseMessageRr sec mem 0 len o ≠ ub) : ∀ n p, readSec sec mem len n p ≠ ub
  | 0, p => by simp [readSec]
  | n + 1, p => by
    rw [readSec]
    split
    · simp
    · apply bind_ne_ub (h _)
      rintro ⟨rr, sz⟩ _
      apply bind_ne_ub (readSec_safe h _ _)
      rintro ⟨a, b⟩ _
      simp

theorem readAll_safe {mem : List UInt8} {len : Nat} (h : ∀ sec o, parseMessageRr sec mem 0 len o ≠ ub) : ∀ secs p, readAll mem len secs p ≠ ub
  | [], p => by simp [readAll]
  | (sec, c) :: secs, p => by
    rw [readAll]
    apply bind_ne_ub (readSec_safe (h sec) _ _)
    rintro ⟨a, b⟩ _
    apply bind_ne_ub (readAll_safe h _ _)
    rintro _ _
    simp

/-- **C35, partial.** If the octet behind the packet is readable and no SVCB/HTTPS-like octets are followed by the octets of an `alpn` SvcParam of
length 0xFFFC or more, the parser reads nothing else, and what it does depends only on the packet and this octet.  Missing (and false): independence of the octet behind
the packet, and the packets with such an `alpn`. -/
theorem C35_safe_scan_partial (mem : List UInt8) (len : Nat) (hm : len < mem.length) (h64 : len < 2 ^ 64)
    (hno : ∀ l, SvcHead (mem.take len) 1 l → l < 65532) :
    parseMessage mem len ≠ ub ∧
    ∀ mem' : List UInt8, mem'.take (len + 1) = mem.take (len + 1) → parseMessage mem' len = parseMessage mem len := by
  have hsame : ∀ mem' : List UInt8, mem'.take (len + 1) = mem.take (len + 1) → ∀ sec o,
      Same (parseMessageRr sec mem 0 len o) (parseMessageRr sec mem' 0 len o) := by
    intro mem' he sec o
    have hg : ∀ i, i ≤ len → mem[i]? = mem'[i]? := by
      intro i hi
      have := congrArg (fun l => l[i]?) he
      simp only [List.getElem?_take_of_lt (show i < len + 1 by omega)] at this
      exact this.symm
    have hm' : len < mem'.length := by
      have := congrArg List.length he
      simp only [List.length_take] at this; omega
    exact parseMessageRr_same hg hm hm' h64 hno
  constructor
  · have := readAll_safe (mem := mem) (len := len) (fun sec o => (hsame mem rfl sec o).safe) (headerSecs mem) 12
    rcases parseMessage_eq (mem := mem) (len := len) (by omega) with ⟨_, h⟩ | ⟨_, ⟨_, _, _, h, _⟩ | ⟨_, _, h⟩ | ⟨h, _⟩ | ⟨_, h⟩ | ⟨_, h⟩⟩
    · simp [h]
    · simp [h]
    · simp [h]
    · exact absurd h this
    · simp [h]
    · simp [h]
  · intro mem' he
    unfold parseMessage
    split
    · rfl
    · have hm' : len < mem'.length := by
        have := congrArg List.length he
        simp only [List.length_take] at this; omega
      rw [rdN_ok (mem := mem) (by omega), rdN_ok (mem := mem') (by omega)]
      have : (mem'.drop 0).take 12 = (mem.drop 0).take 12 := by
        simp only [List.drop_zero]
        have := congrArg (List.take 12) he
        simpa [List.take_take, Nat.min_eq_left (show 12 ≤ len + 1 by omega)] using this
      simp only [ok_bind, this]
      rw [parseSections_congr (fun sec o => (hsame mem' he sec o).eq)]

/-- The sample message, with an octet behind it. -/
example : parseMessage (sampleMsg ++ [7]) 46 ≠ ub :=
  (C35_safe_scan_partial (sampleMsg ++ [7]) 46 (by decide) (by decide) (by
    rintro key ⟨j, i, h1, h2, h3, h4, h5, h6⟩
    have hall : ∀ j < 46, ¬ (u16At ((sampleMsg ++ [7]).take 46) j = 64 ∨ u16At ((sampleMsg ++ [7]).take 46) j = 65) := by decide +kernel
    exact absurd h3 (hall j (by have : ((sampleMsg ++ [7]).take 46).length = 46 := by decide
                                omega)))).1

/-- `hangMsg` has a SvcParam of length 65532, but no `alpn`: the parser reads nothing it should not, it only does not return. -/
example : parseMessage (hangMsg ++ [7]) 30 ≠ ub :=
  (C35_safe_scan_partial (hangMsg ++ [7]) 30 (by decide) (by decide) (by
    rintro l ⟨j, i, h1, h2, h3, h4, h5, h6⟩
    have hall : ∀ i < 30, u16At ((hangMsg ++ [7]).take 30) i = 1 → u16At ((hangMsg ++ [7]).take 30) (i + 2) < 65532 := by decide +kernel
    have hlen : ((hangMsg ++ [7]).take 30).length = 30 := by decide
    have := hall i (by omega) h5
    omega)).1

/-! ## The class of packets on which the parser reads far behind the packet -/

/-- A list of `alpn` identifiers that claims to be 256 octets or more longer than the memory is read beyond the end of the memory, whatever it contains. -/
theorem alpnLoop_off {mem : List UInt8} {val valLen : Nat} (hv : mem.length + 256 ≤ val + valLen) : ∀ fuel i, val + i < mem.length + 256 → mem.length + 256 < val + i + fuel →
    alpnLoop mem val valLen fuel i = ub
  | 0, i, h1, h2 => by omega
  | fuel + 1, i, h1, h2 => by
    rw [alpnLoop, if_pos (by omega)]
    by_cases h : val + i < mem.length
    · rw [rd_of_lt h, ok_bind]
      have := u8_lt mem[val + i]
      exact alpnLoop_off hv fuel _ (by omega) (by omega)
    · rw [rd, List.getElem?_eq_none (by omega)]
      rfl

/-- Proper SvcParams are passed over. -/
theorem svc_later {mem z : List UInt8} {ps : List UInt8} (hp : Params ps) : ∀ src, Win mem src (ps ++ z) → (ps ++ z).length < 65536 → ∀ fuel out,
    (ps ++ z).length < fuel → ∃ fuel', z.length < fuel' ∧
      pSvcparams mem fuel ⟨src, (ps ++ z).length, out⟩ = pSvcparams mem fuel' ⟨src + ps.length, z.length, out ++ ps⟩ := by
  induction hp with
  | nil => intro src _ _ fuel out hf; exact ⟨fuel, hf, by simp⟩
  | @cons a b c d v rest hv hok _ ih =>
    intro src hw hl fuel out hf
    obtain ⟨fuel, rfl⟩ : ∃ f, fuel = f + 1 := ⟨fuel - 1, by omega⟩
    have e : a :: b :: c :: d :: (v ++ rest) ++ z = (a :: b :: c :: d :: v) ++ (rest ++ z) := by simp
    rw [e] at hw hl hf
    have hw' : Win mem src (a :: b :: c :: d :: (v ++ (rest ++ z))) := by simpa using hw
    have r0 := hw'.rd
    have r1 := hw'.tail.rd
    have r2 := hw'.tail.tail.rd
    have r3 := hw'.tail.tail.tail.rd
    rw [show src + 1 + 1 = src + 2 by omega] at r2 r3
    rw [show src + 2 + 1 = src + 3 by omega] at r3
    have hvw : Win mem (src + 4) v := by
      have := hw'.tail.tail.tail.tail
      exact this.left
    obtain ⟨bb, hb1, hb2⟩ := svcparam_ok hvw (be16 a b)
    rw [hb2.mpr hok, hv] at hb1
    simp only [List.length_append, List.length_cons] at hl hf
    have hlen : (a :: b :: c :: d :: v ++ (rest ++ z)).length = v.length + rest.length + z.length + 4 := by simp; omega
    obtain ⟨f', hf', hr⟩ := ih (src + (a :: b :: c :: d :: v).length) hw.right (by simp; omega) fuel (out ++ (a :: b :: c :: d :: v)) (by simp; omega)
    refine ⟨f', hf', ?_⟩
    have e2 : out ++ a :: b :: c :: d :: (v ++ rest) = out ++ (a :: b :: c :: d :: v) ++ rest := by simp
    have e3 : src + (a :: b :: c :: d :: (v ++ rest)).length = src + (a :: b :: c :: d :: v).length + rest.length := by simp; omega
    rw [e2, e3, ← hr, e, hlen]
    simp only [pSvcparams]
    rw [if_pos (by omega), if_neg (by omega)]
    simp only [r0, r1, r2, r3, ok_bind]
    rw [Nat.mod_eq_of_lt (by omega), if_neg (by omega), hb1]
    simp only [ok_bind, Bool.true_eq_false, if_false]
    rw [pCopy_win hw (by rw [hlen]) (by simp; omega), ok_bind]

/-- Over-reading `alpn` at the head of the list. -/
theorem alpn_here {mem : List UInt8} {src : Nat} {l1 : UInt8} {w : List UInt8} (hw : Win mem src (0 :: 1 :: 0xff :: l1 :: w)) (hl : 252 ≤ l1.toNat)
    (hfit : l1.toNat ≤ 256 + w.length) (hoff : mem.length + 256 ≤ src + 4 + (65280 + l1.toNat)) : ∀ fuel out, 0 < fuel →
    pSvcparams mem fuel ⟨src, (0 :: 1 :: 0xff :: l1 :: w).length, out⟩ = ub := by
  intro fuel out hf
  obtain ⟨fuel, rfl⟩ : ∃ f, fuel = f + 1 := ⟨fuel - 1, by omega⟩
  have r0 := hw.rd
  have r1 := hw.tail.rd
  have r2 := hw.tail.tail.rd
  have r3 := hw.tail.tail.tail.rd
  rw [show src + 1 + 1 = src + 2 by omega] at r2 r3
  rw [show src + 2 + 1 = src + 3 by omega] at r3
  have h256 := u8_lt l1
  have hb : be16 0xff l1 = 65280 + l1.toNat := by simp [be16]
  have hwl : src + (w.length + 4) ≤ mem.length := by
    have := hw.len
    simpa using this
  simp only [pSvcparams, List.length_cons, gt_iff_lt, Nat.zero_lt_succ, if_true, r0, r1, ok_bind]
  rw [if_neg (by omega)]
  simp only [r2, r3, ok_bind]
  rw [hb, if_neg (by omega), show be16 0 1 = 1 by decide]
  simp only [svcparamKeyValidate, show ¬ (1 = 0) by decide, if_false, if_true]
  rw [if_neg (by omega), alpnLoop_off (by omega) _ _ (by omega) (by omega)]
  rfl

/-- The parser on an SVCB or HTTPS rdata whose head (priority, target name, proper SvcParams) is well formed. -/
theorem parseRdata_svc {mem : List UInt8} {p eop o rdlen ty e : Nat} {n : Name} {ps z : List UInt8} {r : Outcome PState}
    (hm : eop ≤ mem.length) (h64 : eop < 2 ^ 64) (hp : p ≤ o) (hfit : o + rdlen ≤ eop) (hl : rdlen < 65536)
    (ht : ty = 64 ∨ ty = 65) (hd : Denotes (mem.take eop) p (o + 2) n) (hwf : WF n) (he : EncEnd (mem.take eop) (o + 2) e)
    (hpar : Params ps) (hx : ((mem.take eop).drop e).take (o + rdlen - e) = ps ++ z) (hz : z ≠ [])
    (hr : ∀ fuel out, 0 < fuel → pSvcparams mem fuel ⟨e + ps.length, z.length, out⟩ = r) :
    parseRdata mem p eop o rdlen ty 1 = r >>= fun st => if st.bytes ≠ 0 then err .outOfBounds else ok ⟨st.out.length % 65536, st.out⟩ := by
  have hlt := encEnd_lt he
  have hzl : 0 < z.length := List.length_pos_iff.mpr hz
  have hxl := congrArg List.length hx
  simp only [List.length_take, List.length_drop, List.length_append] at hxl
  have hdesc : recordDescr ty = some ⟨1, [.int16, .name, .svcparams]⟩ := by rcases ht with rfl | rfl <;> rfl
  have hw : Win mem e (ps ++ z) := by
    rw [← hx, show ((mem.take eop).drop e).take (o + rdlen - e) = (mem.drop e).take (o + rdlen - e) from
      slice_congr (fun j _ _ => getElem?_take_lt (by omega))]
    exact Win.mk' (by omega)
  have hlen : (ps ++ z).length = rdlen - 2 - (e - (o + 2)) := by rw [← hx]; simp; omega
  rw [parseRdata_known hdesc (by decide)]
  have hf : ∀ out, pFields mem p eop [.name, .svcparams] ⟨o + 2, rdlen - 2, out⟩ = r := by
    intro out
    simp only [pFields]
    rw [if_neg (by omega), pField_name (by trivial)]
    have hu := C02_unpack_complete maxlenName mem p eop (o + 2) n (by decide) (by omega) (by omega) hm hd hwf
    obtain ⟨e', he1, he2, he3⟩ := C08_skip_agrees mem p (o + 2) eop n h64 hd
    have := encEnd_functional he he1
    subst this
    simp only [hu, he3, ok_bind]
    rw [if_neg (by omega)]
    simp only [ok_bind]
    rw [if_neg (by omega)]
    obtain ⟨f', hf', hh⟩ := svc_later hpar e hw (by rw [← hx]; simp; omega) (rdlen - 2 - (e - (o + 2)) + 1) (out ++ wire n) (by rw [hlen]; omega)
    rw [hr f' _ (by omega), hlen] at hh
    simp only [pField]
    rw [List.take_length, hh]
    cases r <;> rfl
  have : pField mem p eop .int16 ⟨o, rdlen, []⟩ = ok ⟨o + 2, rdlen - 2, (mem.drop o).take 2⟩ := by
    simp only [pField, pCopy]
    rw [if_neg (by omega), rdN_ok (by omega)]
    simp
  rw [show pFields mem p eop [.int16, .name, .svcparams] ⟨o, rdlen, []⟩ = (pField mem p eop .int16 ⟨o, rdlen, []⟩ >>= fun st =>
    pFields mem p eop [.name, .svcparams] st) by simp only [pFields]; rw [if_neg (by omega)], this, ok_bind, hf]

/-- **C35 is violated by a whole class of records**: whatever the packet and the memory around it, the parser reads beyond the end of the memory on an SVCB or HTTPS rdata (class IN) that
has a priority, a target name, any proper SvcParams, and then an `alpn` SvcParam with a length field of 0xFFFC or more that passes the check against the octets left
(`hfit`), unless 65 kB of readable memory follow (`hoff`: the memory ends more than 256 octets before the claimed end of the value). -/
theorem C35_alpn_class (mem : List UInt8) (p eop o rdlen ty e : Nat) (n : Name) (l1 : UInt8) (ps w : List UInt8)
    (hm : eop ≤ mem.length) (h64 : eop < 2 ^ 64) (hp : p ≤ o) (hfit : o + rdlen ≤ eop) (hl : rdlen < 65536)
    (ht : ty = 64 ∨ ty = 65) (hd : Denotes (mem.take eop) p (o + 2) n) (hwf : WF n) (he : EncEnd (mem.take eop) (o + 2) e)
    (hpar : Params ps) (hx : ((mem.take eop).drop e).take (o + rdlen - e) = ps ++ 0 :: 1 :: 0xff :: l1 :: w)
    (hlong : 252 ≤ l1.toNat) (hpass : l1.toNat ≤ 256 + w.length)
    (hoff : mem.length + 256 ≤ e + ps.length + 4 + (65280 + l1.toNat)) :
    parseRdata mem p eop o rdlen ty 1 = ub := by
  have hlt := encEnd_lt he
  have hxl := congrArg List.length hx
  simp only [List.length_take, List.length_drop, List.length_append, List.length_cons] at hxl
  have hw : Win mem e (ps ++ 0 :: 1 :: 0xff :: l1 :: w) := by
    rw [← hx, show ((mem.take eop).drop e).take (o + rdlen - e) = (mem.drop e).take (o + rdlen - e) from
      slice_congr (fun j _ _ => getElem?_take_lt (by omega))]
    exact Win.mk' (by omega)
  rw [parseRdata_svc (r := ub) hm h64 hp hfit hl ht hd hwf he hpar hx (by simp) (fun fuel out hf => alpn_here hw.right hlong hpass hoff fuel out hf)]
  rfl

/-- If the first record of a packet without questions is not left, the parser does not return. -/
theorem parseMessage_first_hang {mem : List UInt8} {len : Nat} (hm : len ≤ mem.length) (h12 : 12 < len) (hq : u16At mem 4 = 0) (ha : u16At mem 6 ≠ 0)
    (h : parseMessageRr 1 mem 0 len 12 = hang) : parseMessage mem len = hang := by
  have hr : readAll mem len (headerSecs mem) 12 = hang := by
    obtain ⟨c, hc⟩ : ∃ c, u16At mem 6 = c + 1 := ⟨u16At mem 6 - 1, by omega⟩
    simp only [headerSecs, readAll, hq, hc, readSec, ok_bind]
    rw [if_neg (by omega), h]
    rfl
  rcases parseMessage_eq hm with ⟨h1, _⟩ | ⟨_, ⟨_, _, h1, _⟩ | ⟨_, h1, _⟩ | ⟨h1, _⟩ | ⟨_, h1⟩ | ⟨h1, _⟩⟩
  · omega
  all_goals first | exact h1 | (rw [hr] at h1; simp at h1)

/-- The same for errors. -/
theorem parseMessage_first_err {mem : List UInt8} {len : Nat} {r : Res} (hm : len ≤ mem.length) (h12 : 12 < len) (hq : u16At mem 4 = 0) (ha : u16At mem 6 ≠ 0)
    (h : parseMessageRr 1 mem 0 len 12 = err r) : parseMessage mem len = err r := by
  have hr : readAll mem len (headerSecs mem) 12 = err r := by
    obtain ⟨c, hc⟩ : ∃ c, u16At mem 6 = c + 1 := ⟨u16At mem 6 - 1, by omega⟩
    simp only [headerSecs, readAll, hq, hc, readSec, ok_bind]
    rw [if_neg (by omega), h]
    rfl
  rcases parseMessage_eq hm with ⟨h1, _⟩ | ⟨_, ⟨_, _, h1, _⟩ | ⟨r', h0, h1⟩ | ⟨h1, _⟩ | ⟨h1, _⟩ | ⟨h1, _⟩⟩
  · omega
  · rw [hr] at h1; simp at h1
  · rw [hr] at h0
    simp only [err.injEq] at h0
    rw [h1, h0]
  all_goals (rw [hr] at h1; simp at h1)

/-- The same for undefined behaviour. -/
theorem parseMessage_first_ub {mem : List UInt8} {len : Nat} (hm : len ≤ mem.length) (h12 : 12 < len) (hq : u16At mem 4 = 0) (ha : u16At mem 6 ≠ 0)
    (h : parseMessageRr 1 mem 0 len 12 = ub) : parseMessage mem len = ub := by
  have hr : readAll mem len (headerSecs mem) 12 = ub := by
    obtain ⟨c, hc⟩ : ∃ c, u16At mem 6 = c + 1 := ⟨u16At mem 6 - 1, by omega⟩
    simp only [headerSecs, readAll, hq, hc, readSec, ok_bind]
    rw [if_neg (by omega), h]
    rfl
  rcases parseMessage_eq hm with ⟨h1, _⟩ | ⟨_, ⟨_, _, h1, _⟩ | ⟨_, h1, _⟩ | ⟨_, h1⟩ | ⟨h1, _⟩ | ⟨h1, _⟩⟩
  · omega
  all_goals first | exact h1 | (rw [hr] at h1; simp at h1)

/-- A record whose rdata fails, fails. -/
theorem parseMessageRr_of_rdata {mem : List UInt8} {len e0 : Nat} {n0 : Name} (hm : len ≤ mem.length) (h64 : len < 2 ^ 64)
    (h12 : 12 < len) (hd : Denotes (mem.take len) 0 12 n0) (hwf : WF n0) (he : EncEnd (mem.take len) 12 e0)
    (hfit : e0 + 10 + u16At mem (e0 + 8) ≤ len) :
    parseMessageRr 1 mem 0 len 12 = parseRdata mem 0 len (e0 + 10) (u16At mem (e0 + 8)) (u16At mem e0) (u16At mem (e0 + 2)) >>= fun rdata =>
      ok (⟨u32At mem (e0 + 4), u16At mem e0, u16At mem (e0 + 2), ⟨(wire n0).length, wire n0⟩, some rdata⟩, e0 + 10 - 12 + u16At mem (e0 + 8)) := by
  have hu := C02_unpack_complete maxlenName mem 0 len 12 n0 (by decide) (by omega) (by omega) hm hd hwf
  obtain ⟨e', he1, he2, he3⟩ := C08_skip_agrees mem 0 12 len n0 h64 hd
  have := encEnd_functional he he1
  subst this
  rw [parseMessageRr_eq hu he3 hm, if_neg (by omega), if_neg (by decide), if_neg (by omega), List.take_length]

/-- A packet without questions whose first record is an SVCB or HTTPS record of class IN: owner `n0` (ending at `e0`), target `n` (ending at `e`), the proper
SvcParams `ps`, and then the octets `z`. -/
structure Spec.SvcFirst (pkt : List UInt8) (n0 : Name) (e0 : Nat) (n : Name) (e : Nat) (ps z : List UInt8) : Prop where
  noQuestion : u16At pkt 4 = 0
  answer : u16At pkt 6 ≠ 0
  owner : Denotes pkt 0 12 n0
  ownerOK : WF n0
  ownerEnd : EncEnd pkt 12 e0
  type : u16At pkt e0 = 64 ∨ u16At pkt e0 = 65
  cls : u16At pkt (e0 + 2) = 1
  fits : e0 + 10 + u16At pkt (e0 + 8) ≤ pkt.length
  target : Denotes pkt 0 (e0 + 12) n
  targetOK : WF n
  targetEnd : EncEnd pkt (e0 + 12) e
  params : Params ps
  rest : (pkt.drop e).take (e0 + 10 + u16At pkt (e0 + 8) - e) = ps ++ z

theorem Spec.SvcFirst.bounds {pkt : List UInt8} {n0 n : Name} {e0 e : Nat} {ps z : List UInt8} (h : SvcFirst pkt n0 e0 n e ps z) : 12 < e0 ∧ e0 + 10 ≤ pkt.length := by
  have := encEnd_lt h.ownerEnd
  have := h.fits
  omega

theorem parseMessageRr_svc {mem : List UInt8} {len : Nat} {n0 n : Name} {e0 e : Nat} {ps z : List UInt8} (hm : len ≤ mem.length) (h64 : len < 2 ^ 64)
    (h : SvcFirst (mem.take len) n0 e0 n e ps z) : ∃ ty rdlen, (ty = 64 ∨ ty = 65) ∧ rdlen < 65536 ∧ e0 + 10 + rdlen ≤ len ∧
      (((mem.take len).drop e).take (e0 + 10 + rdlen - e) = ps ++ z) ∧ 12 < len ∧ u16At mem 4 = 0 ∧ u16At mem 6 ≠ 0 ∧
      (parseRdata mem 0 len (e0 + 10) rdlen ty 1 = hang → parseMessage mem len = hang) ∧
      (parseRdata mem 0 len (e0 + 10) rdlen ty 1 = ub → parseMessage mem len = ub) ∧
      (∀ r, parseRdata mem 0 len (e0 + 10) rdlen ty 1 = err r → parseMessage mem len = err r) := by
  obtain ⟨h1, h2⟩ := h.bounds
  have hfit := h.fits
  have hlen : (mem.take len).length = len := by rw [List.length_take]; omega
  rw [hlen] at h2 hfit
  have hty := h.type
  have hcl := h.cls
  have hq := h.noQuestion
  have ha := h.answer
  rw [u16At_window (by omega)] at hfit hty hcl hq ha
  have hrest := h.rest
  rw [u16At_window (by omega)] at hrest
  have hrr := parseMessageRr_of_rdata hm h64 (by omega) h.owner h.ownerOK h.ownerEnd hfit
  rw [hcl] at hrr
  refine ⟨u16At mem e0, u16At mem (e0 + 8), hty, u16At_lt _ _, hfit, hrest, by omega, hq, ha, ?_, ?_, ?_⟩
  · intro hh
    exact parseMessage_first_hang hm (by omega) hq ha (by rw [hrr, hh]; rfl)
  · intro hh
    exact parseMessage_first_ub hm (by omega) hq ha (by rw [hrr, hh]; rfl)
  · intro r hh
    exact parseMessage_first_err hm (by omega) hq ha (by rw [hrr, hh]; rfl)

/-- **C34 is violated by every packet** without questions whose first record is an SVCB or HTTPS record with a proper head and then a SvcParam of length FF FC whose key
is 0, 4, 5, or above 6 and not 65535; what follows in the packet and behind it is irrelevant. -/
theorem C34_packets_hang (mem : List UInt8) (len : Nat) (n0 n : Name) (e0 e : Nat) (ps w : List UInt8) (k0 k1 : UInt8) (hm : len ≤ mem.length) (h64 : len < 2 ^ 64)
    (h : SvcFirst (mem.take len) n0 e0 n e ps (k0 :: k1 :: 0xff :: 0xfc :: w))
    (hk : be16 k0 k1 ∈ [0, 4, 5] ∨ 6 < be16 k0 k1 ∧ be16 k0 k1 ≠ 65535) : parseMessage mem len = hang := by
  obtain ⟨ty, rdlen, h1, h2, h3, h4, _, _, _, h5, _⟩ := parseMessageRr_svc hm h64 h
  exact h5 (C34_hang_class mem 0 len (e0 + 10) rdlen ty e n k0 k1 ps w hm h64 (by omega) h3 h2 h1 h.target h.targetOK h.targetEnd h.params h4 hk)

/-- `hangMsg` is such a packet. -/
example : parseMessage hangMsg 30 = hang :=
  C34_packets_hang hangMsg 30 [] [] 13 26 [] [] 0 5 (by decide) (by decide)
    ⟨by decide, by decide, .root (by decide), by decide, .root (by decide), .inr (by decide), by decide, by decide, .root (by decide), by decide, .root (by decide), .nil, by decide⟩
    (.inl (by decide))

/-- **C35 is violated by every packet** without questions whose first record is an SVCB or HTTPS record with a proper head and then an `alpn` SvcParam with a length field of 0xFFFC or more: unless
65 kB of readable memory follow the packet, the parser reads beyond the end of the memory. -/
theorem C35_packets_overread (mem : List UInt8) (len : Nat) (n0 n : Name) (e0 e : Nat) (ps w : List UInt8) (l1 : UInt8) (hm : len ≤ mem.length) (h64 : len < 2 ^ 64)
    (h : SvcFirst (mem.take len) n0 e0 n e ps (0 :: 1 :: 0xff :: l1 :: w))
    (hlong : 252 ≤ l1.toNat) (hpass : l1.toNat ≤ 256 + w.length)
    (hoff : mem.length + 256 ≤ e + ps.length + 4 + (65280 + l1.toNat)) : parseMessage mem len = ub := by
  obtain ⟨ty, rdlen, h1, h2, h3, h4, _, _, _, _, h5, _⟩ := parseMessageRr_svc hm h64 h
  exact h5 (C35_alpn_class mem 0 len (e0 + 10) rdlen ty e n l1 ps w hm h64 (by omega) h3 h2 h1 h.target h.targetOK h.targetEnd h.params h4 hlong hpass hoff)

/-- Identifiers of equal length. -/
theorem alpnLoop_const {mem : List UInt8} {val valLen : Nat} {c : UInt8} (hc : ∀ j < valLen, rd mem (val + j) = ok c) : ∀ fuel i, i < valLen + (c.toNat + 1) → valLen - i < fuel →
    (c.toNat + 1) ∣ i → ∃ r, alpnLoop mem val valLen fuel i = ok r ∧ (c.toNat + 1) ∣ r ∧ valLen ≤ r ∧ r < valLen + (c.toNat + 1)
  | 0, i, h1, h2, h3 => by omega
  | fuel + 1, i, h1, h2, h3 => by
    rw [alpnLoop]
    by_cases h : i < valLen
    · rw [if_pos h, hc i h, ok_bind]
      exact alpnLoop_const hc fuel _ (by omega) (by omega) (by rw [Nat.add_assoc, Nat.add_comm 1]; exact Nat.dvd_add h3 (Nat.dvd_refl _))
    · rw [if_neg h]
      exact ⟨i, rfl, h3, by omega, h1⟩

/-- `pSvcparams` on an `alpn` of length 0xFFFC. -/
theorem pSvcparams_alpn {mem : List UInt8} {src r : Nat} (hw : Win mem src [0, 1, 0xff, 0xfc]) (hr : alpnLoop mem (src + 4) 65532 65533 0 = ok r) (fuel : Nat) (out : List UInt8) :
    pSvcparams mem (fuel + 1) ⟨src, 4, out⟩ = if r = 65532 then pSvcparams mem fuel ⟨src, 4, out⟩ else err .parseError := by
  have r0 := hw.rd
  have r1 := hw.tail.rd
  have r2 := hw.tail.tail.rd
  have r3 := hw.tail.tail.tail.rd
  rw [show src + 1 + 1 = src + 2 by omega] at r2 r3
  rw [show src + 2 + 1 = src + 3 by omega] at r3
  have hc : pCopy mem ⟨src, 4, out⟩ 0 = ok ⟨src, 4, out⟩ := by
    have := pCopy_win (f := []) (out := out) hw (b := 4) (n := 0) (by simp) (by simp)
    simpa using this
  rw [pSvcparams]
  simp only [r0, r1, r2, r3, ok_bind, show (4 > 0) by decide, if_true, show ¬ (4 < 4) by decide, if_false, show be16 0 1 = 1 by decide,
    show be16 0xff 0xfc = 65532 by decide, show (2 + 2 + 65532) % 65536 = 0 by decide, show ¬ (0 > 4) by decide, svcparamKeyValidate, show ¬ (1 = 0) by decide,
    show ¬ (65532 = 0) by decide, hr, hc]
  by_cases h : r = 65532
  · simp [h]
  · simp [h]

/-- An HTTPS record with the SvcParam `alpn` of length 0xFFFC. -/
def alpnMsg : List UInt8 :=
  [0, 1, 0x80, 0, 0, 0, 0, 1, 0, 0, 0, 0, 0, 0, 65, 0, 1, 0, 0, 0, 0, 0, 7, 0, 1, 0, 0, 1, 0xff, 0xfc]

/-- **C35 is violated** far behind the packet too: this packet of 30 octets is read beyond the end of the memory even if 65276 octets, whatever they are, follow it; and with 65532
octets behind it the parser's behaviour depends on them: it loops forever if they are all 0 and fails if they are all 4. -/
theorem C35_overread_violated :
    (∀ z : List UInt8, z.length ≤ 65276 → parseMessage (alpnMsg ++ z) 30 = ub) ∧
    parseMessage (alpnMsg ++ List.replicate 65532 0) 30 = hang ∧
    parseMessage (alpnMsg ++ List.replicate 65532 4) 30 = err .parseError := by
  have hs : ∀ z : List UInt8, SvcFirst ((alpnMsg ++ z).take 30) [] 13 [] 26 [] [0, 1, 0xff, 0xfc] := by
    intro z
    rw [List.take_append_of_le_length (by decide)]
    exact ⟨by decide, by decide, .root (by decide), by decide, .root (by decide), .inr (by decide), by decide, by decide, .root (by decide), by decide, .root (by decide), .nil, by decide⟩
  have hl : ∀ z : List UInt8, (alpnMsg ++ z).length = 30 + z.length := by intro z; simp [alpnMsg]; omega
  have hg : ∀ (c : UInt8) j, j < 65532 → rd (alpnMsg ++ List.replicate 65532 c) (26 + 4 + j) = ok c := by
    intro c j hj
    rw [rd, List.getElem?_append_right (by simp [alpnMsg]), show 26 + 4 + j - alpnMsg.length = j by simp [alpnMsg], List.getElem?_replicate, if_pos hj]
  have hw : ∀ c : UInt8, Win (alpnMsg ++ List.replicate 65532 c) 26 [0, 1, 0xff, 0xfc] := by
    intro c
    refine ⟨by rw [hl]; omega, ?_⟩
    rw [List.drop_append_of_le_length (by decide)]
    exact ⟨List.replicate 65532 c, rfl⟩
  refine ⟨?_, ?_, ?_⟩
  · intro z hz
    exact C35_packets_overread _ 30 [] [] 13 26 [] [] 0xfc (by rw [hl]; omega) (by decide) (hs z) (by decide) (by decide) (by rw [hl]; simp; omega)
  · obtain ⟨ty, rdlen, h1, h2, h3, h4, _, _, _, h5, _⟩ := parseMessageRr_svc (len := 30) (by rw [hl]; omega) (by decide) (hs (List.replicate 65532 0))
    obtain ⟨r, hr, _, hr1, hr2⟩ := alpnLoop_const (hg 0) 65533 0 (by omega) (by omega) ⟨0, rfl⟩
    have hre : r = 65532 := by
      have : (0 : UInt8).toNat = 0 := rfl
      omega
    have hh : ∀ fuel out, pSvcparams (alpnMsg ++ List.replicate 65532 0) fuel ⟨26, 4, out⟩ = hang := by
      intro fuel
      induction fuel with
      | zero => intro out; rw [pSvcparams]
      | succ fuel ih => intro out; rw [pSvcparams_alpn (hw 0) hr, if_pos hre]; exact ih out
    apply h5
    rw [parseRdata_svc (r := hang) (by rw [hl]; omega) (by decide) (Nat.zero_le _) h3 h2 h1 (hs (List.replicate 65532 0)).target (hs (List.replicate 65532 0)).targetOK (hs (List.replicate 65532 0)).targetEnd (hs (List.replicate 65532 0)).params h4 (by simp)
      (fun fuel out _ => hh fuel out)]
    rfl
  · obtain ⟨ty, rdlen, h1, h2, h3, h4, _, _, _, _, _, h5⟩ := parseMessageRr_svc (len := 30) (by rw [hl]; omega) (by decide) (hs (List.replicate 65532 4))
    obtain ⟨r, hr, hr0, hr1, hr2⟩ := alpnLoop_const (hg 4) 65533 0 (by omega) (by omega) ⟨0, rfl⟩
    have hre : r ≠ 65532 := by
      rw [show (4 : UInt8).toNat + 1 = 5 from rfl] at hr0
      omega
    apply h5
    rw [parseRdata_svc (r := err .parseError) (by rw [hl]; omega) (by decide) (Nat.zero_le _) h3 h2 h1 (hs (List.replicate 65532 4)).target (hs (List.replicate 65532 4)).targetOK (hs (List.replicate 65532 4)).targetEnd (hs (List.replicate 65532 4)).params h4 (by simp)
      (fun fuel out hf => by
        obtain ⟨f, rfl⟩ : ∃ f, fuel = f + 1 := ⟨fuel - 1, by omega⟩
        rw [show 26 + ([] : List UInt8).length = 26 by rfl, show [0, 1, 0xff, (0xfc : UInt8)].length = 4 by rfl, pSvcparams_alpn (hw 4) hr, if_neg hre])]
    rfl

end Wdns
