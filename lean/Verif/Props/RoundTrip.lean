import Verif.Lemmas.RoundTrip
import Verif.Props.FromText

/-!
# Writing rdata as text and reading it back (C44); type bitmaps (C65)
-/

namespace Wdns
open Outcome Spec

theorem strToRdata_fields {s w : List UInt8} {ty cls : Nat} {d : Descr} (hd : recordDescr ty = some d) (ha : d.applies cls = true)
    {p : Option (List UInt8)} (h : sFields d.types (some s) [] = ok (.go p w)) : strToRdata s ty cls = ok w := by
  unfold strToRdata strToRdataUbuf
  rw [hd]
  simp only [ha, if_true]
  rw [h]
  rfl

/-! ## C44 -/

/-- **C44**, types whose layout the library knows: an accepted rdata that the text form can express (`Exact`) is written and
read back unchanged.

Missing: the rdata that are accepted but not `Exact`; `C44_violation_…` below show that the library does lose or reject
each of these.  The other restrictions are those of `C42_known_partial`. -/
theorem C44_round_trip_partial (mem : List UInt8) (p eop o rdlen ty cls : Nat) (d : Descr) (r : CRdata)
    (hd : recordDescr ty = some d) (ha : d.applies cls = true) (hopt : ty ≠ 41)
    (hm : eop ≤ mem.length) (h64 : eop < 2 ^ 64) (hp : p ≤ o) (hfit : o + rdlen ≤ eop) (hl : rdlen < 65536)
    (hsvc : ty = 64 ∨ ty = 65 → cls = 1 → ¬ LongSvc (mem.take eop) o rdlen)
    (h : parseRdata mem p eop o rdlen ty cls = ok r) (hlt : r.data.length < 65536) (hx : Exact d.types r.data) :
    ∃ text, rdataToStr r.data r.len ty cls = ok text ∧ strToRdata text ty cls = ok r.data := by
  obtain ⟨toks, h1, h2, -, -⟩ := C42_known_partial mem p eop o rdlen ty cls d r hd ha hopt hm h64 hp hfit hl hsvc h hlt
  obtain ⟨p', h3⟩ := fields_scan h1 hx (descr_good hd) (some (spaced toks)) _ [] At.some (Or.inr rfl)
  exact ⟨_, h2, strToRdata_fields hd ha (by rw [h3, List.nil_append])⟩

/-- The types with a field whose text form cannot express everything the parser accepts: A6, OPT, RRSIG, NSEC, NSEC3, CSYNC,
SVCB, HTTPS. -/
def lossyTypes : List Nat := [38, 41, 46, 47, 50, 62, 64, 65]

theorem exact_of_conforms {ts : List Rdf} {w : List UInt8} (h : Conforms ts w)
    (hts : ∀ t ∈ ts, t ≠ .rrtype ∧ t ≠ .ipv6prefix ∧ t ≠ .typeBitmap ∧ t ≠ .svcparams) : Exact ts w := by
  induction h with
  | done => exact .done
  | name h1 h2 _ ih => exact .name h1 h2 (ih fun t ht => hts t (by simp [ht]))
  | @field t ts f rest h1 h2 h3 _ ih =>
    refine .field h1 h2 h3 ?_ (ih fun t ht => hts t (by simp [ht]))
    obtain ⟨a, b, c, e⟩ := hts t (by simp)
    cases t <;> first | exact trivial | exact absurd rfl (by assumption)

/-- **C44** for all other types the library knows (A, NS, SOA, MX, TXT, AAAA, SRV, DS, DNSKEY, TLSA, CAA …): every accepted
rdata is written and read back unchanged. -/
theorem C44_round_trip_plain (mem : List UInt8) (p eop o rdlen ty cls : Nat) (d : Descr) (r : CRdata)
    (hd : recordDescr ty = some d) (ha : d.applies cls = true) (hty : ty ∉ lossyTypes)
    (hm : eop ≤ mem.length) (h64 : eop < 2 ^ 64) (hp : p ≤ o) (hfit : o + rdlen ≤ eop) (hl : rdlen < 65536)
    (h : parseRdata mem p eop o rdlen ty cls = ok r) (hlen : ty ∉ [24, 30] ∨ r.data.length < 65536) :
    ∃ text, rdataToStr r.data r.len ty cls = ok text ∧ strToRdata text ty cls = ok r.data := by
  have hsv : ¬ (ty = 64 ∨ ty = 65) := by
    rintro (rfl | rfl) <;> exact hty (by decide)
  have hc := C40_stored_conforms_partial mem p eop o rdlen ty cls d r hd ha hm h64 hp hfit hl (fun h => absurd h hsv) h
  have hfields : ∀ t ∈ d.types, t ≠ .rrtype ∧ t ≠ .ipv6prefix ∧ t ≠ .typeBitmap ∧ t ≠ .svcparams := by
    have hall : ∀ ty < 258, ty ∈ lossyTypes ∨ ∀ d ∈ recordDescr ty, ∀ t ∈ d.types,
        t ∉ [Rdf.rrtype, .ipv6prefix, .typeBitmap, .svcparams] := by decide +kernel
    intro t ht
    have := ((hall ty (recordDescr_lt hd)).resolve_left hty) d hd t ht
    simpa using this
  have hlt : r.data.length < 65536 := by
    rcases hlen with h' | h'
    · refine (C39_length_iff mem p eop o rdlen ty cls r h).2.mp
        (C39_length_exact_partial mem p eop o rdlen ty cls r hm h64 hp hfit hl (fun h => absurd h hsv) (.inl ?_) h)
      simp only [lossyTypes, List.mem_cons, List.not_mem_nil, or_false, not_or] at hty h' ⊢
      omega
    · exact h'
  refine C44_round_trip_partial mem p eop o rdlen ty cls d r hd ha ?_ hm h64 hp hfit hl (fun h => absurd h hsv) h hlt
    (exact_of_conforms hc hfields)
  rintro rfl
  exact hty (by decide)

/-- **C44** for a type the library has no layout for: always. -/
theorem C44_round_trip_unknown (mem : List UInt8) (p eop o rdlen ty cls : Nat) (r : CRdata) (hd : recordDescr ty = none)
    (hm : eop ≤ mem.length) (h64 : eop < 2 ^ 64) (hp : p ≤ o) (hfit : o + rdlen ≤ eop) (hl : rdlen < 65536)
    (h : parseRdata mem p eop o rdlen ty cls = ok r) :
    ∃ text, rdataToStr r.data r.len ty cls = ok text ∧ strToRdata text ty cls = ok r.data := by
  have hw : ((mem.drop o).take rdlen).length = rdlen := by simp; omega
  have h1 := C41_opaque_verbatim mem p eop o ty cls ((mem.drop o).take rdlen) (Or.inl fun l hm => by
    have hs : ∀ e ∈ rrLayout, (recordDescr e.1).isSome = true := by decide +kernel
    have := hs _ hm
    rw [hd] at this
    exact absurd this (by simp)) hm (by omega)
    (by rw [← show ((mem.take eop).drop o).take rdlen = (mem.drop o).take rdlen from slice_congr (fun j _ _ => getElem?_take_lt (by omega))]; exact List.take_prefix _ _) (by omega)
  rw [hw] at h1
  rw [h1] at h
  cases h
  obtain ⟨s, h2, h3⟩ := C46_generic_round_trip ((mem.drop o).take rdlen) ty cls hd (by omega)
  rw [hw] at h2
  exact ⟨s, h2, h3⟩

/-- Accepted rdata that satisfy the hypotheses: an MX record; an HTTPS record `1 . alpn="h2,h3" port=443`. -/
example : (∃ d, recordDescr 15 = some d ∧ d.applies 1 = true ∧ 15 ∉ lossyTypes) ∧
    parseRdata [0, 10, 1, 98, 1, 97, 0] 0 7 0 7 15 1 = ok ⟨7, [0, 10, 1, 98, 1, 97, 0]⟩ ∧
    rdataToStr [0, 10, 1, 98, 1, 97, 0] 7 15 1 = ok (ascii "10 b.a.") ∧
    strToRdata (ascii "10 b.a.") 15 1 = ok [0, 10, 1, 98, 1, 97, 0] :=
  ⟨⟨_, rfl, by decide, by decide⟩, by decide +kernel, by decide +kernel, by decide +kernel⟩

example : Exact [.int16, .name, .svcparams] [0, 1, 0, 0, 1, 0, 6, 2, 104, 50, 2, 104, 51, 0, 3, 0, 2, 1, 187] ∧
    strToRdata (ascii "1 . alpn=\"h2,h3\" port=443") 65 1 = ok [0, 1, 0, 0, 1, 0, 6, 2, 104, 50, 2, 104, 51, 0, 3, 0, 2, 1, 187] := by
  refine ⟨?_, by decide +kernel⟩
  refine .field (f := [0, 1]) (rest := [0, 0, 1, 0, 6, 2, 104, 50, 2, 104, 51, 0, 3, 0, 2, 1, 187]) rfl (by simp) (fun h => absurd h id) trivial ?_
  refine .name (n := []) (rest := [0, 1, 0, 6, 2, 104, 50, 2, 104, 51, 0, 3, 0, 2, 1, 187]) trivial ⟨by simp, by decide⟩ ?_
  refine .field (f := [0, 1, 0, 6, 2, 104, 50, 2, 104, 51, 0, 3, 0, 2, 1, 187]) (rest := []) ?_ (by simp) (fun _ => rfl) ?_ .done
  · exact params_of (ps := [(1, [2, 104, 50, 2, 104, 51]), (3, [1, 187])]) (by
      intro p hp
      simp only [List.mem_cons, List.not_mem_nil, or_false] at hp
      rcases hp with rfl | rfl
      · exact ⟨by decide, by decide, by simp, strings_of (ss := [[104, 50], [104, 51]]) (by simp)⟩
      · exact ⟨by decide, by decide, rfl⟩)
  · refine ⟨[(1, [2, 104, 50, 2, 104, 51]), (3, [1, 187])], ?_, by decide⟩
    intro p hp
    simp only [List.mem_cons, List.not_mem_nil, or_false] at hp
    rcases hp with rfl | rfl
    · refine ⟨by decide, by decide, by decide, by simp, fun _ => ⟨[[104, 50]], [104, 51], by simp, by simp, by decide⟩, by simp⟩
    · exact ⟨by decide, by decide, by decide, by simp, by simp, by simp⟩

/-- `w` is accepted as the rdata of a record of type `ty` and class `cls`, its text is `t`, and reading `t` has the result
`back`. -/
def Trip (ty cls : Nat) (w t : List UInt8) (back : Outcome (List UInt8)) : Prop :=
  parseRdata w 0 w.length 0 w.length ty cls = ok ⟨w.length, w⟩ ∧ rdataToStr w w.length ty cls = ok t ∧ strToRdata t ty cls = back

instance (ty cls w t back) : Decidable (Trip ty cls w t back) := by unfold Trip; infer_instance

/-- **C44 is violated**: accepted rdata whose text is refused or is read as something else.  An RRSIG that covers type 0; an
A record of class CH; NSEC bitmaps with a repeated window and with a trailing zero octet; A6 with a full address and a name,
and with a full prefix and no name; HTTPS with an empty `mandatory` list before `no-default-alpn` or before `port`, with an
empty `ipv4hint`, with the reserved key in `mandatory`, with an empty `ech`, with an `alpn` list ending in an empty id. -/
theorem C44_violations :
    Trip 46 1 [0, 0, 8, 2, 0, 0, 0, 1, 0, 0, 0, 2, 0, 0, 0, 3, 0, 7, 0, 1] (ascii "TYPE0 8 2 1 2 3 7 . AQ==") (err .parseError) ∧
    Trip 1 3 [1, 2, 3, 4] [] (ok []) ∧
    Trip 47 1 [0, 0, 1, 0x40, 0, 1, 0x20] (ascii ". A NS") (ok [0, 0, 1, 0x60]) ∧
    Trip 47 1 [0, 0, 2, 0x40, 0] (ascii ". A") (ok [0, 0, 1, 0x40]) ∧
    Trip 38 1 [0, 1, 1, 1, 1, 1, 1, 1, 1, 1, 1, 1, 1, 1, 1, 1, 1, 0] (ascii "0 101:101:101:101:101:101:101:101 .") (err .parseError) ∧
    Trip 38 1 [128] (ascii "128") (err .parseError) ∧
    Trip 65 1 [0, 1, 0, 0, 0, 0, 0, 0, 2, 0, 0] (ascii "1 . mandatory=no-default-alpn") (ok [0, 1, 0, 0, 0, 0, 2, 0, 2]) ∧
    Trip 65 1 [0, 1, 0, 0, 0, 0, 0, 0, 3, 0, 2, 0, 1] (ascii "1 . mandatory=port=1") (err .parseError) ∧
    Trip 65 1 [0, 1, 0, 0, 4, 0, 0] (ascii "1 . ipv4hint=") (err .parseError) ∧
    Trip 65 1 [0, 1, 0, 0, 0, 0, 2, 255, 255] (ascii "1 . mandatory=invalid key") (err .parseError) ∧
    Trip 65 1 [0, 1, 0, 0, 5, 0, 0] (ascii "1 . ech=") (err .parseError) ∧
    Trip 65 1 [0, 1, 0, 0, 1, 0, 3, 1, 104, 0] (ascii "1 . alpn=\"h,\"") (ok [0, 1, 0, 0, 1, 0, 2, 1, 104, 0]) := by
  decide +kernel

/-! ## C65 -/

/-- **C65**, NSEC: a name followed by a list of type names (any letter case, any blanks, any order, with repetitions) is read
as the name and the canonical bitmap of exactly those types. -/
theorem C65_nsec (n : Name) (hn : WF n) (s : List UInt8) (ts : List Nat) (cls : Nat) (h : TypeList s ts) :
    ∃ f, strToRdata (nameText n ++ 32 :: s) 47 cls = ok (wire n ++ f) ∧ CanonBitmap f (· ∈ ts) := by
  obtain ⟨p, h1, h2⟩ := scan_name (t := .uname) trivial hn (rest := 32 :: s) Sep.cons []
  obtain ⟨q, f, h3, h4⟩ := sFields_bitmap (.blank (Or.inl rfl) h) (wire n)
  refine ⟨f, ?_, h4⟩
  have hp : p = some (32 :: s) := by
    rcases h2 with h2 | ⟨_, h2⟩
    · exact h2
    · exact absurd h2 (by simp)
  subst hp
  have hd : recordDescr 47 = some ⟨0, [.uname, .typeBitmap]⟩ := rfl
  refine strToRdata_fields (p := q) hd (by rfl) ?_
  rw [sFields_cons (dropSpace_graphic (graphic_nameText n) (nameText_ne_nil n)) (by simp [nameText_ne_nil]) h1, List.nil_append, h3]

/-- **C65**, CSYNC: serial, flags, types. -/
theorem C65_csync (a b c d e g : UInt8) (s : List UInt8) (ts : List Nat) (cls : Nat) (h : TypeList s ts) :
    ∃ f, strToRdata (decText (be32 a b c d) ++ 32 :: (decText (be16 e g) ++ 32 :: s)) 62 cls = ok ([a, b, c, d, e, g] ++ f) ∧
      CanonBitmap f (· ∈ ts) := by
  have hdrop : ∀ n rest, (32 :: (decText n ++ rest)).dropWhile isSpace = decText n ++ rest := fun n rest => by
    rw [List.dropWhile_cons, if_pos (by rfl), dropSpace_graphic (graphic_decText n) (decText_ne_nil n)]
  obtain ⟨q, f, h3, h4⟩ := sFields_bitmap (.blank (Or.inl rfl) h) [a, b, c, d, e, g]
  refine ⟨f, strToRdata_fields (d := ⟨0, [.int32, .int16, .typeBitmap]⟩) (p := q) rfl (by rfl) ?_, h4⟩
  rw [sFields_cons (dropSpace_graphic (graphic_decText _) (decText_ne_nil _)) (by simp [decText_ne_nil]) (scan_int32 a b c d Sep.cons []),
    sFields_cons (hdrop _ _) (by simp [decText_ne_nil]) (scan_int16 e g Sep.cons _)]
  exact h3

/-- **C65**, NSEC3: algorithm, flags, iterations, salt (hexadecimal or `-`), hash (base32), types. -/
theorem C65_nsec3 (alg flags i0 i1 : UInt8) (salt hash : List UInt8) (hs : salt.length < 256) (hh : hash.length < 256) (hne : hash ≠ [])
    (s : List UInt8) (ts : List Nat) (cls : Nat) (h : TypeList s ts) :
    ∃ f, strToRdata (decText alg.toNat ++ 32 :: (decText flags.toNat ++ 32 :: (decText (be16 i0 i1) ++
        32 :: ((if salt = [] then [45] else hexText false salt) ++ 32 :: (base32 hash ++ 32 :: s))))) 50 cls =
      ok ([alg, flags, i0, i1] ++ encString salt ++ encString hash ++ f) ∧ CanonBitmap f (· ∈ ts) := by
  have hdrop : ∀ {t rest : List UInt8}, Starts t → (32 :: (t ++ rest)).dropWhile isSpace = t ++ rest := fun {t rest} ht => by
    rw [List.dropWhile_cons, if_pos (by rfl), ht.append.drop]
  have hdec : ∀ n, Starts (decText n) := fun n => starts_graphic (graphic_decText n) (decText_ne_nil n)
  obtain ⟨tk, tt, e1, s1⟩ := fieldToks_head (t := .salt) (f := encString salt) ⟨salt, hs, rfl, rfl⟩ (by simp [encString]) (by decide)
  obtain ⟨tk', tt', e2, s2⟩ := fieldToks_head (t := .hash) (f := encString hash) ⟨hash, hh, rfl, rfl⟩ (by simp [encString]) (by decide)
  cases e1
  rw [if_neg hne] at e2
  cases e2
  have hhash := scan_hash hh (rest := 32 :: s) Sep.cons ([alg, flags, i0, i1] ++ encString salt)
  rw [if_neg hne] at hhash
  obtain ⟨q, f, h3, h4⟩ := sFields_bitmap (.blank (Or.inl rfl) h) ([alg, flags, i0, i1] ++ encString salt ++ encString hash)
  refine ⟨f, strToRdata_fields (d := ⟨0, [.int8, .int8, .int16, .salt, .hash, .typeBitmap]⟩) (p := q) rfl (by rfl) ?_, h4⟩
  rw [sFields_cons (hdec _).append.drop (hdec _).append.ne (scan_int8 alg Sep.cons []),
    sFields_cons (hdrop (hdec _)) (hdec _).append.ne (scan_int8 flags Sep.cons _),
    sFields_cons (hdrop (hdec _)) (hdec _).append.ne (scan_int16 i0 i1 Sep.cons _),
    sFields_cons (hdrop s1) s1.append.ne (scan_salt hs Sep.cons _),
    show [] ++ [alg] ++ [flags] ++ [i0, i1] ++ encString salt = [alg, flags, i0, i1] ++ encString salt from rfl,
    sFields_cons (hdrop s2) s2.append.ne hhash]
  exact h3

/-- **C65**: neither the order nor repetitions nor the spelling matter: two lists of the same types give the same octets. -/
theorem C65_order_irrelevant (n : Name) (hn : WF n) (s s' : List UInt8) (ts ts' : List Nat) (cls : Nat) (h : TypeList s ts)
    (h' : TypeList s' ts') (heq : ∀ t, t ∈ ts ↔ t ∈ ts') :
    strToRdata (nameText n ++ 32 :: s) 47 cls = strToRdata (nameText n ++ 32 :: s') 47 cls := by
  obtain ⟨f, h1, h2⟩ := C65_nsec n hn s ts cls h
  obtain ⟨f', h1', h2'⟩ := C65_nsec n hn s' ts' cls h'
  rw [h1, h1', canonBitmap_unique h2 h2' heq]

/-- `ns`, `TYPE1` and `A` in one list, with a repetition: bits 1 and 2 of window 0. -/
example : TypeList (ascii "ns TYPE1\t A") [2, 1, 1] ∧ strToRdata (ascii "a. ns TYPE1\t A") 47 1 = ok [1, 97, 0, 0, 1, 0x60] := by
  refine ⟨?_, by decide +kernel⟩
  refine .cons (tok := ascii "ns") (c := 32) (s := ascii "TYPE1\t A") (Or.inl ⟨ascii "NS", by decide, by decide⟩) (Or.inl rfl) ?_
  refine .cons (tok := ascii "TYPE1") (c := 9) (s := ascii " A")
    (Or.inr ⟨by decide, ascii "TYPE", ascii "1", by decide, by decide, ?_⟩) (Or.inr (Or.inl rfl)) ?_
  · exact decText_isDecimal 1
  · exact .blank (Or.inl rfl) (.last (Or.inl ⟨ascii "A", by decide, by decide⟩))

/-- The hypotheses of `C65_csync` and `C65_nsec3`, and what the theorems then say. -/
example : TypeList (ascii "A") [1] ∧ ([171, 205] : List UInt8).length < 256 ∧ ([1, 2, 3, 4, 5] : List UInt8) ≠ [] ∧
    strToRdata (ascii "66 3 A") 62 1 = ok [0, 0, 0, 66, 0, 3, 0, 1, 64] ∧
    strToRdata (ascii "1 0 10 abcd 04106105 A") 50 1 = ok [1, 0, 0, 10, 2, 171, 205, 5, 1, 2, 3, 4, 5, 0, 1, 64] :=
  ⟨.last (Or.inl ⟨ascii "A", by decide, by decide⟩), by decide, by decide, by decide +kernel, by decide +kernel⟩

end Wdns
