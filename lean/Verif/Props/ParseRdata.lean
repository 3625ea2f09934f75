import Verif.Lemmas.Descr
import Verif.Spec.RdataTable

/-!
# Properties C38 - C41: parsing of rdata
-/

namespace Wdns
open Outcome Spec

/-- `parseRdata` for a record with a known layout. -/
theorem parseRdata_known {mem p eop o rdlen ty cls} {d : Descr} (hd : recordDescr ty = some d)
    (ha : d.applies cls = true) :
    parseRdata mem p eop o rdlen ty cls = (do
      let st ← pFields mem p eop d.types ⟨o, rdlen, []⟩
      if st.bytes ≠ 0 then err .outOfBounds else ok ⟨st.out.length % 65536, st.out⟩) := by
  simp only [parseRdata, hd, ha, if_true]
  cases pFields mem p eop d.types ⟨o, rdlen, []⟩ with
  | ok st => simp only [ok_bind]; split <;> simp
  | _ => rfl

/-- The record has no known layout: type not in the table, or a class-specific type in another class. -/
def Opaque (ty cls : Nat) : Prop := ∀ d, recordDescr ty = some d → d.applies cls = false

theorem parseRdata_opaque {mem : List UInt8} {p eop o ty cls : Nat} {rd : List UInt8} (ho : Opaque ty cls)
    (hw : Win mem o rd) (hl : rd.length < 65536) :
    parseRdata mem p eop o rd.length ty cls = ok ⟨rd.length, rd⟩ := by
  have hc : pCopy mem ⟨o, rd.length, []⟩ rd.length = ok ⟨o + rd.length, 0, [] ++ rd⟩ :=
    pCopy_win (rest := []) (by simpa using hw) (by simp) rfl
  unfold parseRdata
  cases hd : recordDescr ty with
  | none => simp [hc, Nat.mod_eq_of_lt hl]
  | some d => simp [ho d hd, hc, Nat.mod_eq_of_lt hl]

theorem win_of_take {mem : List UInt8} {eop o : Nat} {x : List UInt8} (hw : Win (mem.take eop) o x) :
    Win mem o x := by
  obtain ⟨h1, h2⟩ := hw
  simp only [List.length_take] at h1
  refine ⟨by omega, h2.trans ?_⟩
  rw [List.drop_take]
  exact List.take_prefix _ _

/-! ## C41 -/

/-- **C41.** For a record type without a known layout, and for a class-specific type in another class,
any rdata is accepted and stored byte for byte. -/
theorem C41_opaque_verbatim (mem : List UInt8) (p eop o ty cls : Nat) (rd : List UInt8)
    (hty : (∀ l, (ty, l) ∉ rrLayout) ∨ (∃ l, (ty, l) ∈ rrLayout ∧ l.inOnly = true ∧ cls ≠ 1))
    (hm : eop ≤ mem.length) (ho : o ≤ eop) (hst : rd <+: (mem.take eop).drop o) (hl : rd.length < 65536) :
    parseRdata mem p eop o rd.length ty cls = ok ⟨rd.length, rd⟩ := by
  apply parseRdata_opaque _ (win_of_take ⟨by simp; omega, hst⟩) hl
  intro d hd
  have hall : ∀ ty < 258, ∀ d ∈ recordDescr ty,
      ∃ l ∈ rrLayout, l.1 = ty ∧ (d.cls = if l.2.inOnly then 1 else 0) ∧
        ∀ l' ∈ rrLayout, l'.1 = ty → l' = l := by decide +kernel
  obtain ⟨⟨ty', l⟩, h1, h2, h3, h4⟩ := hall ty (recordDescr_lt hd) d hd
  simp only at h2
  subst h2
  rcases hty with h | ⟨l', h5, h6, h7⟩
  · exact absurd h1 (h l)
  · have := h4 _ h5 rfl
    simp only [Prod.mk.injEq, true_and] at this
    subst this
    simp only [h6, if_true] at h3
    simp [Descr.applies, h3]
    omega

example : parseRdata [9, 1, 2, 3, 4, 5] 0 6 1 5 1 3 = ok ⟨5, [1, 2, 3, 4, 5]⟩ ∧
    parseRdata [9, 1, 2, 3, 4, 5] 0 6 1 5 65280 1 = ok ⟨5, [1, 2, 3, 4, 5]⟩ := by decide

/-! ## C40 -/

/-- **C40 (the layouts).** The layouts the library uses are those of the RFCs, for every record type. -/
theorem C40_layouts (ty : Nat) :
    (recordDescr ty).map (fun d => (⟨d.cls = 1, d.types.map kindOf⟩ : RRLayout)) = rrLayout.lookup ty ∧
    ∀ d, recordDescr ty = some d → ∀ cls, d.applies cls = true ↔ (d.cls = 1 → cls = 1) := by
  constructor
  · by_cases h : ty < 258
    · have hall : ∀ ty < 258, (recordDescr ty).map (fun d => (⟨d.cls = 1, d.types.map kindOf⟩ : RRLayout)) =
        rrLayout.lookup ty := by decide +kernel
      exact hall ty h
    · rw [recordDescr_big (by omega)]
      have : ∀ l ∈ rrLayout, l.1 < 258 := by decide
      symm
      simp only [Option.map_none, List.lookup_eq_none_iff]
      intro p hp
      have := this p hp
      simp; omega
  · intro d hd cls
    rcases (descr_facts hd).2.2.2.1 with h | h
    · simp [Descr.applies, h]
    · simp [Descr.applies, h, eq_comm]

/-- **C40, partial.** For a record type with a known layout `d.types`, `_wdns_parse_rdata` on the octets
`[o, o + rdlen)` of a message succeeds exactly when they are fields of that layout (names possibly
compressed), ending before any field but consuming exactly `rdlen` octets, and then stores
the fields, names decompressed.
Missing: an SVCB/HTTPS rdata with a SvcParam whose length field is 65532 or more (`LongParam`), see
`C40_schema_violated`; the stored length, see C39. -/
theorem C40_schema_exact_partial (msg : List UInt8) (p o rdlen ty cls : Nat) (d : Descr) (r : CRdata)
    (hd : recordDescr ty = some d) (ha : d.applies cls = true)
    (h64 : msg.length < 2 ^ 64) (hp : p ≤ o) (hfit : o + rdlen ≤ msg.length) (hl : rdlen < 65536)
    (hsvc : ty = 64 ∨ ty = 65 → cls = 1 → ¬ LongSvc msg o rdlen) :
    parseRdata msg p msg.length o rdlen ty cls = ok r ↔
      ∃ x, Layout msg p (o + rdlen) d.types o x ∧ r = ⟨x.length % 65536, x⟩ := by
  have hf := descr_facts hd
  rw [parseRdata_known hd ha]
  constructor
  · intro h
    obtain ⟨⟨s, b, x⟩, h1, h2⟩ := bind_eq_ok.mp h
    simp only at h2
    split at h2
    · simp at h2
    · rename_i hb
      simp only [ne_eq, Decidable.not_not] at hb
      subst hb
      obtain ⟨y, hy1, hy2⟩ := pFields_sound h64 hf.1 hp hfit hl
        (no_longIn hd ha hsvc) h1
      simp only [List.nil_append] at hy1
      subst hy1
      simp only [ok.injEq] at h2
      exact ⟨_, hy2, h2.symm⟩
  · rintro ⟨x, hx, rfl⟩
    have := pFields_complete (mem := msg) (eop := msg.length) (p := p) hfit (Nat.le_refl _) h64
      (by rw [List.take_of_length_le (Nat.le_refl _)]; exact hx) hp (by omega) []
    rw [show o + rdlen - o = rdlen by omega] at this
    simp [this]

/-- Whatever follows the packet in memory (up to `eop`): what is stored is the uncompressed form of fields that end where the rdata ends, or, if the rdata
ends with the packet, one octet later. -/
theorem parseRdata_sound_mem {mem : List UInt8} {p eop o rdlen ty cls : Nat} {d : Descr} {r : CRdata}
    (hd : recordDescr ty = some d) (ha : d.applies cls = true) (hm : eop ≤ mem.length) (h64 : eop < 2 ^ 64) (hp : p ≤ o) (hfit : o + rdlen ≤ eop)
    (hl : rdlen < 65536) (hsvc : ty = 64 ∨ ty = 65 → cls = 1 → ¬ LongSvc (mem.take eop) o rdlen)
    (h : parseRdata mem p eop o rdlen ty cls = ok r) :
    ∃ x e, Layout (mem.take (eop + 1)) p e d.types o x ∧ e ≤ (mem.take (eop + 1)).length ∧ r = ⟨x.length % 65536, x⟩ ∧
      (e = o + rdlen ∨ o + rdlen = eop ∧ e = eop + 1 ∧ x.length ≤ 256 * d.types.length) := by
  have hf := descr_facts hd
  rw [parseRdata_known hd ha] at h
  obtain ⟨⟨s, b, x⟩, h1, h2⟩ := bind_eq_ok.mp h
  simp only at h2
  split at h2
  · simp at h2
  · rename_i hb
    simp only [ne_eq, Decidable.not_not] at hb
    subst hb
    obtain ⟨y, e, hy1, hy2, hy3, hy4⟩ := pFields_sound_mem hm h64 hf.1 hp hfit hl (no_longIn hd ha hsvc) h1
    simp only [List.nil_append] at hy1
    subst hy1
    simp only [ok.injEq] at h2
    exact ⟨_, e, hy2, hy3, h2.symm, hy4⟩

/-- **C40 (stored form).** What is stored is an uncompressed rdata of that layout, whatever follows the packet in memory. -/
theorem C40_stored_conforms_partial (mem : List UInt8) (p eop o rdlen ty cls : Nat) (d : Descr) (r : CRdata)
    (hd : recordDescr ty = some d) (ha : d.applies cls = true)
    (hm : eop ≤ mem.length) (h64 : eop < 2 ^ 64) (hp : p ≤ o) (hfit : o + rdlen ≤ eop) (hl : rdlen < 65536)
    (hsvc : ty = 64 ∨ ty = 65 → cls = 1 → ¬ LongSvc (mem.take eop) o rdlen)
    (h : parseRdata mem p eop o rdlen ty cls = ok r) : Conforms d.types r.data := by
  obtain ⟨x, e, hx, he, rfl, _⟩ := parseRdata_sound_mem hd ha hm h64 hp hfit hl hsvc h
  exact conforms_of_layout hx he

/-- MX record at offset 5, exchanging host `b.a.` with a pointer to `a.` at offset 1. -/
example : parseRdata [7, 1, 97, 0, 9, 0, 10, 1, 98, 0xc0, 1, 3] 0 12 5 6 15 1 =
    ok ⟨7, [0, 10, 1, 98, 1, 97, 0]⟩ := by decide

/-- The hypotheses of `C40_schema_exact_partial` on that record. -/
example : Layout [7, 1, 97, 0, 9, 0, 10, 1, 98, 0xc0, 1, 3] 0 11 [.int16, .name] 5
    [0, 10, 1, 98, 1, 97, 0] := by
  refine Layout.field (o' := 7) (by decide) (by decide) (by decide) rfl (fun h => h.elim) ?_
  refine Layout.name (n := [[98], [97]]) (o' := 11) (rest := []) (by decide) trivial ?_ (by decide)
    (EncEnd.label (c := 1) rfl (by decide) (by decide) (EncEnd.ptr (hi := 0xc0) rfl (by decide))) (by decide)
    Layout.done
  exact Denotes.label (c := 1) (o := 7) rfl (by decide) (by decide) (by decide)
    (Denotes.ptr (hi := 0xc0) (lo := 1) rfl (by decide) rfl (by decide)
      (Denotes.label (c := 1) (o := 1) rfl (by decide) (by decide) (by decide) (Denotes.root rfl)))

/-- **C40 is violated**: an SVCB rdata with the single parameter key 5, length 65535 and three octets is
accepted, although the parameter claims 65535 octets: `2 + 2 + 65535` wraps to 3 in `uint16_t`, and the
rest is read as the next parameter. -/
theorem C40_schema_violated :
    parseRdata [0, 1, 0, 0, 5, 255, 255, 0, 0, 0] 0 10 0 10 64 1 =
      ok ⟨10, [0, 1, 0, 0, 5, 255, 255, 0, 0, 0]⟩ ∧
    ¬ ∃ x, Layout [0, 1, 0, 0, 5, 255, 255, 0, 0, 0] 0 10 [.int16, .name, .svcparams] 0 x := by
  refine ⟨by decide, ?_⟩
  rintro ⟨x, h⟩
  cases h with
  | name _ h2 => exact h2
  | @field _ _ _ o' rest h1 h2 h3 h4 h5 h6 =>
    have ho : o' = 2 := by
      have h4' : (List.take (o' - 0) (List.drop 0 ([0, 1, 0, 0, 5, 255, 255, 0, 0, 0] : List UInt8))).length = 2 := h4
      simp at h4'; omega
    subst ho
    cases h6 with
    | field _ _ _ h4 => exact h4
    | @name _ _ _ o' n rest h1 h2 h3 h4 h5 h6 h7 =>
      have := encEnd_functional h5 (EncEnd.root rfl)
      subst this
      cases h7 with
      | name _ h2 => exact h2
      | @field _ _ _ o' rest h1 h2 h3 h4 h5 h6 =>
        have := h5 trivial
        subst this
        have := (params_iff.mp (show Params [0, 5, 255, 255, 0, 0, 0] from h4)).1
        simp [be16] at this

/-! ## C38 -/

/-- **C38.** An rdata whose fields conform to the layout of its type, with all embedded names
uncompressed, is accepted at any place of any message, and stored byte for byte. -/
theorem C38_uncompressed_verbatim (mem : List UInt8) (p eop o ty cls : Nat) (d : Descr) (rd : List UInt8)
    (hd : recordDescr ty = some d) (ha : d.applies cls = true) (hc : Conforms d.types rd)
    (hm : eop ≤ mem.length) (h64 : eop < 2 ^ 64) (hp : p ≤ o) (ho : o ≤ eop)
    (hst : rd <+: (mem.take eop).drop o) (hl : rd.length < 65536) :
    parseRdata mem p eop o rd.length ty cls = ok ⟨rd.length, rd⟩ := by
  have hw : Win (mem.take eop) o rd := ⟨by simp; omega, hst⟩
  have hlen := hw.len
  simp only [List.length_take] at hlen
  have := pFields_complete (mem := mem) (p := p) (by omega : o + rd.length ≤ eop) hm h64
    (layout_of_conforms hc hw) hp (by omega) []
  rw [show o + rd.length - o = rd.length by omega] at this
  rw [parseRdata_known hd ha, this]
  simp [Nat.mod_eq_of_lt hl]

/-- A case of `C38_uncompressed_verbatim`: an uncompressed SRV record. -/
example : parseRdata ([9, 9] ++ [0, 1, 0, 2, 0, 80, 1, 97, 0] ++ [7]) 0 11 2 9 33 1 = ok ⟨9, [0, 1, 0, 2, 0, 80, 1, 97, 0]⟩ := by decide

/-- **C38 (idempotence).** Parsing a stored rdata again, wherever it is placed, gives the same rdata, for
every record type and class. -/
theorem C38_parse_idempotent (mem : List UInt8) (p eop o rdlen ty cls : Nat) (r : CRdata)
    (hm : eop ≤ mem.length) (h64 : eop < 2 ^ 64) (hp : p ≤ o) (hfit : o + rdlen ≤ eop) (hl : rdlen < 65536)
    (hsvc : ty = 64 ∨ ty = 65 → cls = 1 → ¬ LongSvc (mem.take eop) o rdlen)
    (h : parseRdata mem p eop o rdlen ty cls = ok r) (hr : r.data.length < 65536)
    (mem' : List UInt8) (p' eop' o' : Nat) (hm' : eop' ≤ mem'.length) (h64' : eop' < 2 ^ 64)
    (hp' : p' ≤ o') (ho' : o' ≤ eop') (hst : r.data <+: (mem'.take eop').drop o') :
    parseRdata mem' p' eop' o' r.data.length ty cls = ok r := by
  by_cases hop : Opaque ty cls
  · have hw := Win.mk' (mem := mem) (o := o) (n := rdlen) (by omega)
    have hwl := take_drop_length mem o rdlen (by omega)
    have := parseRdata_opaque (p := p) (eop := eop) hop hw (by rw [hwl]; exact hl)
    rw [hwl, h, ok.injEq] at this
    subst this
    have := parseRdata_opaque (p := p') (eop := eop') hop (win_of_take ⟨by simp; omega, hst⟩) hr
    rw [this]
    simp [hwl]
  · unfold Opaque at hop
    simp only [not_forall, Bool.not_eq_false] at hop
    obtain ⟨d, hd, ha⟩ := hop
    have hc := C40_stored_conforms_partial mem p eop o rdlen ty cls d r hd ha hm h64 hp hfit hl hsvc h
    obtain ⟨x, _, _, _, rfl, _⟩ := parseRdata_sound_mem hd ha hm h64 hp hfit hl hsvc h
    simp only at hr hc hst ⊢
    rw [C38_uncompressed_verbatim mem' p' eop' o' ty cls d x hd ha hc hm' h64' hp' ho' hst hr,
      Nat.mod_eq_of_lt hr]

/-- An SRV record, uncompressed: hypotheses met. -/
example : Conforms [.int16, .int16, .int16, .name] [0, 1, 0, 2, 0, 80, 1, 97, 0] :=
  .field (f := [0, 1]) rfl (by decide) (fun h => h.elim) <|
  .field (f := [0, 2]) rfl (by decide) (fun h => h.elim) <|
  .field (f := [0, 80]) rfl (by decide) (fun h => h.elim) <|
  .name (n := [[97]]) (rest := []) trivial (by decide) .done

/-! ## C39 -/

/-- The stored rdata of a record, in any memory, is below 64 KiB except for six types. -/
theorem stored_len {msg : List UInt8} {p eop o rdlen ty e : Nat} {d : Descr} {x : List UInt8} (hd : recordDescr ty = some d)
    (hx : Layout msg p e d.types o x) (he : e ≤ msg.length) (hl : rdlen < 65536)
    (hty : ty ∉ [24, 30, 46, 47, 64, 65] ∨ rdlen ≤ 65282)
    (hov : e = o + rdlen ∨ o + rdlen = eop ∧ e = eop + 1 ∧ x.length ≤ 256 * d.types.length) : x.length < 65536 := by
  have hsmall := descr_short hd
  rcases hov with hov | ⟨_, _, hov⟩
  · subst hov
    rcases (descr_facts hd).2.2.2.2 with ⟨h1, h2⟩ | h1 | ⟨h1, h2⟩
    · have := layout_len_noterm hx h1
      omega
    · have := layout_len_plain hx he h1
      omega
    · have := layout_len_le hx he
      have : rdlen ≤ 65282 := by
        rcases hty with h | h
        · simp at h; omega
        · exact h
      omega
  · omega

/-- **C39, exactly.** The length field of a stored rdata is its number of bytes modulo 2^16, so it is right exactly when there are
fewer than 65536 of them.  For every memory, type and class, well-formed or not. -/
theorem C39_length_iff (mem : List UInt8) (p eop o rdlen ty cls : Nat) (r : CRdata) (h : parseRdata mem p eop o rdlen ty cls = ok r) :
    r.len = r.data.length % 65536 ∧ (r.len = r.data.length ↔ r.data.length < 65536) := by
  have key : r.len = r.data.length % 65536 := by
    unfold parseRdata at h
    dsimp only at h
    split at h
    · obtain ⟨st, -, h⟩ := bind_eq_ok.mp h; cases h; rfl
    · split at h
      · obtain ⟨st, -, h⟩ := bind_eq_ok.mp h
        split at h
        · cases h
        · cases h; rfl
      · obtain ⟨st, -, h⟩ := bind_eq_ok.mp h; cases h; rfl
  omega

/-- **C39, partial.** The length field of a stored rdata is the number of stored bytes for
every record type except SIG, NXT, RRSIG, NSEC, SVCB and HTTPS (a name followed by a field of
unbounded length), and for these too when the rdata had at most 65282 octets in the message.
Missing: longer rdata of these six types, see `C39_length_violated`. -/
theorem C39_length_exact_partial (mem : List UInt8) (p eop o rdlen ty cls : Nat) (r : CRdata)
    (hm : eop ≤ mem.length) (h64 : eop < 2 ^ 64) (hp : p ≤ o) (hfit : o + rdlen ≤ eop) (hl : rdlen < 65536)
    (hsvc : ty = 64 ∨ ty = 65 → cls = 1 → ¬ LongSvc (mem.take eop) o rdlen)
    (hty : ty ∉ [24, 30, 46, 47, 64, 65] ∨ rdlen ≤ 65282)
    (h : parseRdata mem p eop o rdlen ty cls = ok r) : r.len = r.data.length := by
  by_cases hop : Opaque ty cls
  · have hw := Win.mk' (mem := mem) (o := o) (n := rdlen) (by omega)
    have hwl := take_drop_length mem o rdlen (by omega)
    have := parseRdata_opaque (p := p) (eop := eop) hop hw (by rw [hwl]; exact hl)
    rw [hwl, h, ok.injEq] at this
    subst this
    simp only [hwl]
  · unfold Opaque at hop
    simp only [not_forall, Bool.not_eq_false] at hop
    obtain ⟨d, hd, ha⟩ := hop
    obtain ⟨x, e, hx, he, rfl, hov⟩ := parseRdata_sound_mem hd ha hm h64 hp hfit hl hsvc h
    simp only
    apply Nat.mod_eq_of_lt
    exact stored_len hd hx he (by omega) hty hov

example : parseRdata [1, 97, 0, 0xc0, 0, 1, 2, 3] 0 8 3 5 30 1 = ok ⟨6, [1, 97, 0, 1, 2, 3]⟩ := by decide

/-- A name of 255 octets. -/
def longName : Name :=
  [List.replicate 63 97, List.replicate 63 97, List.replicate 63 97, List.replicate 61 97]

/-- **C39 is violated**: an NXT rdata of 65535 octets, a compressed 255-octet name and 65533 octets, is
accepted; 65788 octets are stored but the length field says 252. -/
theorem C39_length_violated :
    ∃ (msg : List UInt8) (r : CRdata), parseRdata msg 0 msg.length 255 65535 30 1 = ok r ∧
      r.data.length = 65788 ∧ r.len = 252 := by
  obtain ⟨tl, htl⟩ : ∃ tl : List UInt8, tl.length = 65533 := ⟨List.replicate 65533 0, List.length_replicate⟩
  have hwf : WF longName := by decide +kernel
  have hlen : (wire longName).length = 255 := by decide +kernel
  refine ⟨wire longName ++ ([192, 0] ++ tl),
    ⟨(wire longName ++ tl).length % 65536, wire longName ++ tl⟩, ?_⟩
  generalize hmsg : wire longName ++ ([192, 0] ++ tl) = msg
  have hml : msg.length = 65790 := by rw [← hmsg]; simp [hlen, htl]
  have hst : wire longName <+: msg.drop 0 := by rw [← hmsg, List.drop_zero]; exact List.prefix_append _ _
  have h1 : ([192, 0] ++ tl) <+: msg.drop 255 := by
    rw [← hmsg, ← hlen, List.drop_left]; exact List.prefix_rfl
  obtain ⟨h2, h3⟩ := prefix_drop_append.mp h1
  have h4 := prefix_drop_cons.mp h2
  have h5 := prefix_drop_cons.mp h4.2
  have h6 : (msg.drop 257).take (255 + 65535 - 257) = tl := by
    have := prefix_drop_iff.mp h3
    rw [htl] at this; exact this
  have hlay : Layout msg 0 (255 + 65535) [.name, .bytes] 255 (wire longName ++ tl) := by
    refine .name (o' := 257) (by omega) trivial ?_ hwf (.ptr h4.1 (by decide)) (by omega) ?_
    · exact .ptr h4.1 (by decide) h5.1 (by decide) (denotes_of_stored hwf.1 hst)
    · have := Layout.field (msg := msg) (base := 0) (e := 255 + 65535) (t := .bytes) (ts := [])
        (o := 257) (o' := 255 + 65535) (rest := []) (by omega) (by omega) (by omega) trivial (fun _ => rfl) .done
      rw [h6, List.append_nil] at this
      exact this
  refine ⟨?_, by simp [hlen, htl], by simp [hlen, htl]⟩
  exact (C40_schema_exact_partial msg 0 255 65535 30 1 ⟨0, [.name, .bytes]⟩ _ rfl rfl (by omega) (by omega)
    (by omega) (by omega) (by omega)).mpr ⟨_, hlay, rfl⟩

end Wdns
