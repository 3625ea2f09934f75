import Verif.Model.Descr
import Verif.Model.RRset

/-!
# Model: lower-casing the names of rdata

wdns/downcase_rdata.c, wdns/downcase_rrset.c.  The rdata is changed in place, also when an error is returned,
so a call yields the result code together with the new contents.
-/

namespace Wdns
open Outcome

/-- `SIZE_MAX`: what `bytes_remaining--` leaves when `bytes_remaining` is 0 (wdns/downcase_rdata.c:83). -/
def sizeMax : Nat := 18446744073709551615

/-- The loop of `case rdf_name: case rdf_uname:` — wdns/downcase_rdata.c:81-92.
`data` is `rdata->data`, `p` an offset; the result is the new `data`, `p` and `bytes_remaining`. -/
def dnName : Nat → List UInt8 → Nat → Nat → Outcome (List UInt8 × Nat × Nat)
  | 0, _, _, _ => hang
  | fuel + 1, data, p, rem =>
    if rem = 0 then ok (data, p, sizeMax)
    else do
      let c ← rd data p
      if c = 0 then ok (data, p + 1, rem - 1)
      else
        let data := if c.toNat ≥ 65 ∧ c.toNat ≤ 90 then data.set p (c ||| 0x20) else data
        dnName fuel data (p + 1) (rem - 1)

/-- The loop over the field types — wdns/downcase_rdata.c:75-144, and the final test :145-147.
`k` is the macro `advance_bytes` (:21-26) followed by the rest of the loop. -/
def dnFields : List Rdf → List UInt8 → Nat → Nat → Outcome (Res × List UInt8)
  | [], data, _, rem => if rem ≠ 0 then ok (.parseError, data) else ok (.success, data)
  | t :: ts, data, p, rem =>
    let k (x : Nat) : Outcome (Res × List UInt8) :=
      if rem < x then ok (.parseError, data) else dnFields ts data (p + x) (rem - x)
    if rem = 0 then ok (.success, data)
    else
      match t with
      | .name | .uname => do
        let (data, p, rem) ← dnName (data.length + 2) data p rem
        dnFields ts data p rem
      | .repstring | .bytes | .bytesB64 | .bytesStr | .typeBitmap | .svcparams => ok (.success, data)
      | .int8 => k 1
      | .int16 | .rrtype => k 2
      | .int32 | .ipv4 => k 4
      | .ipv6 => k 16
      | .eui48 => k 6
      | .eui64 =>                                     -- no `break`: falls through to `case rdf_string`
        if rem < 8 then ok (.parseError, data)
        else do
          let oclen ← rd data (p + 8)
          if rem - 8 < oclen.toNat + 1 then ok (.parseError, data)
          else dnFields ts data (p + 8 + (oclen.toNat + 1)) (rem - 8 - (oclen.toNat + 1))
      | .string | .salt | .hash => do
        let oclen ← rd data p
        k (oclen.toNat + 1)
      | .ipv6prefix => do
        let oclen ← rd data p
        if oclen.toNat > 16 then ok (.parseError, data)
        else k (oclen.toNat + 1)
      | .ednsOptRdata => abort

/-- The `switch (rrtype)` of wdns/downcase_rdata.c:43-69. -/
def downcaseTypes : List Nat :=
  [38, 18, 5, 39, 36, 7, 3, 4, 8, 14, 9, 15, 35, 2, 30, 12, 26, 17, 21, 24, 6, 33]

/-- `wdns_downcase_rdata` — wdns/downcase_rdata.c:17-151.  The function looks at the first `rdata->len` bytes;
bytes after them (there are none in an rdata made by the library) are kept. -/
def downcaseRdata (r : CRdata) (rrtype rrclass : Nat) : Outcome (Res × CRdata) :=
  match recordDescr rrtype with
  | none => ok (.success, r)
  | some d =>
    if rrtype ∈ downcaseTypes then
      if d.applies rrclass then do
        let (res, data) ← dnFields d.types r.data 0 r.len
        ok (res, { r with data := data })
      else ok (.success, r)
    else ok (.success, r)

/-- The loop of wdns/downcase_rrset.c:23-30 (the pointers of a live RRset are not NULL). -/
def downcaseRdatas (rrtype rrclass : Nat) : List CRdata → Outcome (Res × List CRdata)
  | [] => ok (.success, [])
  | r :: rs => do
    let (res, r) ← downcaseRdata r rrtype rrclass
    if res ≠ .success then ok (res, r :: rs)
    else do
      let (res, rs) ← downcaseRdatas rrtype rrclass rs
      ok (res, r :: rs)

/-- `wdns_downcase_rrset` — wdns/downcase_rrset.c:17-33. -/
def downcaseRrset (s : RRset) : Outcome (Res × RRset) := do
  let name ← downcaseName s.name
  let (res, rdatas) ← downcaseRdatas s.rrtype s.rrclass s.rdatas
  ok (res, { s with name := name, rdatas := rdatas })

end Wdns
