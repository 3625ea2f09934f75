import Verif.Lemmas.ScanBase

/-!
# Reading rdata from text (C44, C45, C46, C65)
-/

namespace Wdns
open Outcome Spec

/-! ## C45 -/

/-- **C45**: a failed scan leaves the buffer exactly as it was; a successful one keeps what was there as a prefix.  For
every previous contents, text, type and class, whatever the text. -/
theorem C45_scan_buffer (u s : List UInt8) (ty cls : Nat) (r : Res) (u' : List UInt8)
    (h : strToRdataUbuf u s ty cls = ok (r, u')) : (r ≠ .success → u' = u) ∧ (r = .success → ∃ w, u' = u ++ w) := by
  unfold strToRdataUbuf at h
  obtain ⟨f, hf, h⟩ := bind_eq_ok.mp h
  have hp : u <+: f.buf := by
    split at hf
    · exact sUnknown_prefix s u f hf
    · split at hf
      · exact sFields_prefix _ _ _ f hf
      · cases hf; exact List.prefix_refl _
  cases f with
  | go p w =>
    simp only [ok.injEq, Prod.mk.injEq] at h
    obtain ⟨rfl, rfl⟩ := h
    exact ⟨fun h => absurd rfl h, fun _ => by obtain ⟨t, ht⟩ := hp; exact ⟨t, ht.symm⟩⟩
  | bad e w =>
    simp only [ok.injEq, Prod.mk.injEq] at h
    obtain ⟨rfl, rfl⟩ := h
    have : w.take u.length = u := take_prefix_len hp
    exact ⟨fun _ => this, fun _ => ⟨[], by rw [this, List.append_nil]⟩⟩

/-- A scan that fails after the first string has been appended, and one that succeeds. -/
example : strToRdataUbuf [7] (ascii "\"ab\" \"c") 16 1 = ok (.parseError, [7]) ∧
    strToRdataUbuf [7] (ascii "\"ab\" \"c\"") 16 1 = ok (.success, [7, 2, 97, 98, 1, 99]) := by decide +kernel

/-! ## C46 -/

theorem sUnknown_generic (w u : List UInt8) (hl : w.length < 65536) :
    sUnknown (genericText w) u = ok (.go (some []) (u ++ w)) := by
  unfold sUnknown genericText
  simp only
  have e1 : ascii "\\# " = [92, 35, 32] := by decide
  have e2 : ascii "\\#" = [92, 35] := by decide
  rw [e1, e2]
  simp only [List.cons_append, List.nil_append, List.append_assoc]
  rw [if_neg (by simp)]
  simp only [List.drop_succ_cons, List.drop_zero, List.head?_cons, Option.map_some, Option.getD_some]
  rw [if_pos (by decide)]
  have h1 : isSpace 32 = true := rfl
  rw [List.dropWhile_cons, if_pos h1, dropSpace_graphic (graphic_decText _) (decText_ne_nil _),
    takeWhile_app (fun c hc => by simp [isSpace_graphic ((graphic_decText _) c hc).1]) (by intro c hc; simp at hc; subst hc; rfl),
    if_pos (decText_digits _), scanfU_dec 16 Sep.cons (by omega)]
  simp only [List.drop_left]
  rw [sGeneric_space _ _ _ h1, sGeneric_hex]
  simp only [ok_bind, Nat.zero_add]
  rw [Nat.mod_eq_of_lt (by omega), if_pos rfl]

/-- **C46**: for a type without a known layout, the text `wdns_rdata_to_str` returns is read back by `wdns_str_to_rdata` to
the identical octets. -/
theorem C46_generic_round_trip (w : List UInt8) (ty cls : Nat) (hd : recordDescr ty = none) (hl : w.length < 65536) :
    ∃ s, rdataToStr w w.length ty cls = ok s ∧ strToRdata s ty cls = ok w := by
  have h := C42_generic w [] ty cls hd hl
  rw [List.append_nil] at h
  refine ⟨_, h, ?_⟩
  unfold strToRdata strToRdataUbuf
  rw [hd]
  simp only
  rw [sUnknown_generic w [] hl]
  rfl

example : recordDescr 65280 = none ∧ strToRdata (ascii "\\# 3 01 02 ff ") 65280 1 = ok [1, 2, 255] := by decide +kernel

end Wdns
