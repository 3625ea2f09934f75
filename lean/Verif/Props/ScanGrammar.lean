import Verif.Lemmas.ScanGrammar
import Verif.Spec.PresTable
import Verif.Props.StringGrammar

/-!
# C73: which texts are rdata, and of which octets

`Scanned` and `GenericReads` (`Spec/ScanGrammar.lean`) say, without reference to the scanner, which texts are rdata.
-/

namespace Wdns
open Outcome Spec

/-- **C73.** For a record type with a known layout (in its class), `wdns_str_to_rdata` accepts exactly the texts that are a sequence of
fields of that layout, and gives exactly the octets of those fields.  Texts are C strings: without NUL. -/
theorem C73_rdata_exact (s r : List UInt8) (t c : Nat) (d : Descr) (hd : recordDescr t = some d) (ha : d.applies c = true) (h0 : 0 ∉ s) :
    strToRdata s t c = ok r ↔ Scanned d.types s r := by
  rw [strToRdata_iff hd ha, sFields_iff d.types s [] r (some s) h0 (Or.inl rfl)]
  constructor
  · rintro ⟨w, hw, rfl⟩; exact hw
  · intro h; exact ⟨r, h, rfl⟩

/-- **C73.** For a record type without a known layout, exactly the texts of the generic form are accepted. -/
theorem C73_generic_exact (s r : List UInt8) (t c : Nat) (hd : recordDescr t = none) : strToRdata s t c = ok r ↔ GenericReads s r := by
  have hn := sUnknown_noBad s []
  have key : strToRdata s t c = ok r ↔ ∃ p, sUnknown s [] = ok (.go p r) := by
    unfold strToRdata strToRdataUbuf
    simp only [hd]
    cases h : sUnknown s [] with
    | ok x =>
      cases x with
      | go s' u => simp
      | bad e u =>
        simp only [ok_bind]
        have he : e ≠ .success := fun he => hn u (by rw [h, he])
        simp [he]
    | err e => simp [Bind.bind, Outcome.bind]
    | ub => simp [Bind.bind, Outcome.bind]
    | hang => simp [Bind.bind, Outcome.bind]
    | abort => simp [Bind.bind, Outcome.bind]
  rw [key, sUnknown_iff]
  constructor
  · rintro ⟨w, hw, rfl⟩; exact hw
  · intro h; exact ⟨r, h, rfl⟩

/-- **C73.** For a record type of class IN in another class, every text is accepted and gives empty rdata. -/
theorem C73_other_class (s : List UInt8) (t c : Nat) (d : Descr) (hd : recordDescr t = some d) (ha : d.applies c = false) :
    strToRdata s t c = ok [] := by
  unfold strToRdata strToRdataUbuf
  simp [hd, ha]

/-- A case of `C73_other_class`: A in class CH. -/
example : strToRdata (ascii "anything") 1 3 = ok [] := C73_other_class _ 1 3 _ rfl (by decide)

/-- **C73.** A text has at most one reading. -/
theorem C73_unique (ts : List Rdf) (s a b : List UInt8) (h0 : 0 ∉ s) (ha : Scanned ts s a) (hb : Scanned ts s b) : a = b := by
  obtain ⟨q, hq⟩ := (sFields_iff ts s [] a (some s) h0 (Or.inl rfl)).mpr ⟨a, ha, rfl⟩
  obtain ⟨q', hq'⟩ := (sFields_iff ts s [] b (some s) h0 (Or.inl rfl)).mpr ⟨b, hb, rfl⟩
  rw [hq] at hq'
  simp only [ok.injEq, FRes.go.injEq] at hq'
  exact hq'.2

/-- **C73.** The fields of each type are those of the RFC that defines it, except for NULL, WKS, SIG and NXT. -/
theorem C73_table (t : Nat) (h : t ∉ [10, 11, 24, 30]) : (recordDescr t).map (fun d => d.types.map presOf) = rrPres.lookup t := by
  by_cases ht : t < 258
  · have hall : ∀ t < 258, t ∉ [10, 11, 24, 30] → (recordDescr t).map (fun d => d.types.map presOf) = rrPres.lookup t := by decide +kernel
    exact hall t ht h
  · have h1 : recordDescr t = none := by
      unfold recordDescr
      split <;> first | omega | rfl
    have h2 : ∀ l ∈ rrPres, l.1 < 258 := by decide
    have h3 : rrPres.lookup t = none := by
      rw [List.lookup_eq_none_iff]
      intro p hp
      have := h2 p hp
      simp only [bne_iff_ne, ne_eq]
      omega
    rw [h1, h3]; rfl

/-- **C73** (violated): NULL, whose text form is not defined, is read as plain hexadecimal; the address of WKS as one decimal number and
its services as hexadecimal; the type covered by SIG as a number and its signature as hexadecimal; the type bitmap of NXT as
hexadecimal. -/
theorem C73_table_violations :
    recordDescr 10 = some ⟨0, [.bytes]⟩ ∧ recordDescr 11 = some ⟨1, [.int32, .int8, .bytes]⟩ ∧
    recordDescr 24 = some ⟨0, [.int16, .int8, .int8, .int32, .int32, .int32, .int16, .name, .bytes]⟩ ∧
    recordDescr 30 = some ⟨0, [.name, .bytes]⟩ := by
  exact ⟨rfl, rfl, rfl, rfl⟩

/-- The hypotheses of C73 on the text of an MX record … -/
example : Scanned [.int16, .name] (ascii " 10 \t a.b.") [0, 10, 1, 97, 1, 98, 0] := by
  refine (C73_rdata_exact _ _ 15 1 ⟨0, [.int16, .name]⟩ rfl rfl (by decide)).mp ?_
  decide +kernel

/-- … and on a text that no reading fits. -/
example : ∀ r, ¬ Scanned [.int16, .name] (ascii "65536 a.") r := by
  intro r h
  have := (C73_rdata_exact _ _ 15 1 ⟨0, [.int16, .name]⟩ rfl rfl (by decide)).mpr h
  revert this
  rw [show strToRdata (ascii "65536 a.") 15 1 = err .parseError by decide +kernel]
  simp

example : GenericReads (ascii "\\# 3 01 02 fF") [1, 2, 255] := by
  refine (C73_generic_exact _ _ 1234 1 (by decide)).mp ?_
  decide +kernel

/-- **C73** (violated): texts outside the RFC grammar that are accepted: a sign, a single digit before a letter, a length modulo
65536. -/
theorem C73_lenient_violations :
    strToRdata (ascii "5g") 10 1 = ok [5] ∧ strToRdata (ascii "-1") 10 1 = ok [255] ∧
    strToRdata (ascii "\\# 65537 ff") 1234 1 = ok [255] ∧ strToRdata (ascii "10") 15 1 = ok [0, 10] ∧
    strToRdata (ascii "1 a. junk") 15 1 = ok [0, 1, 1, 97, 0] := by
  decide +kernel

end Wdns
