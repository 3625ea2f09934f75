import Verif.Basic

/-!
# Model of the domain-name functions of wdns
-/

namespace Wdns
open Outcome

/-- `WDNS_MAXLEN_NAME` — wdns/wdns.h.in:31. -/
def maxlenName : Nat := 255

/-- `WDNS_PRESLEN_NAME` — wdns/wdns.h.in:39. -/
def preslenName : Nat := 1025

/-! ## wdns_unpack_name — wdns/unpack_name.c:32-94 -/

/-- The `while` loop and the code after it, wdns/unpack_name.c:44-93.
`out` = bytes written to `dst` (an object of `cap` bytes), `total` = `total_len`.
Pointers are offsets into `mem`.  `(c & 63) << 8` is written `(c % 64) * 256`; the comparison
`cptr > src - 2` is written `cptr + 2 > src`; forming an out-of-range pointer value
without dereferencing it is not treated as undefined. -/
def unpackLoop (cap : Nat) (mem : List UInt8) (p eop : Nat) :
    Nat → Nat → List UInt8 → Nat → Outcome (List UInt8 × Nat)
  | 0, _, _, _ => hang
  | fuel + 1, src, out, total => do
    let c ← rd mem src                                          -- c = *src++
    let src := src + 1
    if c = 0 then
      let out ← wr cap out 0                                    -- *dst = '\0'
      ok (out, total + 1)                                       -- total_len++
    else if c.toNat ≥ 192 then
      if src > eop then err .outOfBounds
      else
        let lo ← rd mem src
        let cptr := p + ((c.toNat % 64) * 256 + lo.toNat)
        if cptr > eop then err .invalidCompressionPointer
        else
          let prev ← rd mem (src - 1)
          if cptr + 1 = src ∧ prev = 0 then
            unpackLoop cap mem p eop fuel cptr out total
          else if cptr + 2 > src then err .invalidCompressionPointer
          else unpackLoop cap mem p eop fuel cptr out total
    else if c.toNat ≤ 63 then
      let total := total + 1
      if total ≥ maxlenName then err .nameOverflow
      else
        let out ← wr cap out c
        let total := total + c.toNat
        if total ≥ maxlenName then err .nameOverflow
        else if src + c.toNat > eop then err .outOfBounds
        else
          let bs ← rdN mem src c.toNat
          let out ← wrN cap out bs                              -- memcpy(dst, src, c)
          unpackLoop cap mem p eop fuel (src + c.toNat) out total
    else err .invalidLengthOctet

/-- An iteration budget that the loop never exhausts (theorem `C03_unpack_terminates`). -/
def unpackFuel (eop : Nat) : Nat := 256 * (eop + 2)

/-- `wdns_unpack_name` with a `dst` of `cap` bytes — wdns/unpack_name.c:32-94.
Returns the bytes stored in `dst` and `*sz`. -/
def unpackName (cap : Nat) (mem : List UInt8) (p eop src : Nat) : Outcome (List UInt8 × Nat) :=
  if p ≥ eop ∨ src ≥ eop ∨ src < p then err .outOfBounds
  else unpackLoop cap mem p eop (unpackFuel eop) src [] 0

/-! ## wdns_copy_uname — wdns/copy_uname.c:32-69 -/

/-- The loop, wdns/copy_uname.c:43-68.  Same conventions as `unpackLoop`. -/
def copyLoop (cap : Nat) (mem : List UInt8) (eop : Nat) :
    Nat → Nat → List UInt8 → Nat → Outcome (List UInt8 × Nat)
  | 0, _, _, _ => hang
  | fuel + 1, src, out, total => do
    let c ← rd mem src
    let src := src + 1
    if c = 0 then
      let out ← wr cap out 0
      ok (out, total + 1)
    else if c.toNat ≤ 63 then
      let total := total + 1
      if total ≥ maxlenName then err .nameOverflow
      else
        let out ← wr cap out c
        let total := total + c.toNat
        if total ≥ maxlenName then err .nameOverflow
        else if src + c.toNat > eop then err .outOfBounds
        else
          let bs ← rdN mem src c.toNat
          let out ← wrN cap out bs
          copyLoop cap mem eop fuel (src + c.toNat) out total
    else err .invalidLengthOctet

/-- `wdns_copy_uname` — wdns/copy_uname.c:32-69. -/
def copyUname (cap : Nat) (mem : List UInt8) (p eop src : Nat) : Outcome (List UInt8 × Nat) :=
  if p ≥ eop ∨ src ≥ eop ∨ src < p then err .outOfBounds
  else copyLoop cap mem eop (eop + 2) src [] 0

/-! ## wdns_skip_name — wdns/skip_name.c:29-58 -/

/-- The `while` loop, wdns/skip_name.c:36-46; returns the final `src`. -/
def skipLoop (mem : List UInt8) (eod : Nat) : Nat → Nat → Outcome Nat
  | 0, _ => hang
  | fuel + 1, src =>
    if src ≤ eod then do
      let c ← rd mem src
      if c = 0 then ok src
      else if c.toNat ≥ 192 then ok (src + 1)
      else skipLoop mem eod fuel (src + (c.toNat + 1))
    else ok src

/-- `wdns_skip_name` — wdns/skip_name.c:29-58.  Returns the new value of `*data` and
the number of bytes skipped (a `size_t`, modelled with its wrap-around). -/
def skipName (mem : List UInt8) (data eod : Nat) : Outcome (Nat × Nat) := do
  let src ← skipLoop mem eod (eod + 2) data
  let src := src + 1
  let src := if src > eod then eod else src
  ok (src, (src + 2 ^ 64 - data) % 2 ^ 64)

/-! ## wdns_len_uname — wdns/len_uname.c:30-55 -/

/-- The `while (len-- != 0)` loop, wdns/len_uname.c:39-49, with `len` a `uint32_t`;
returns the value of `len` after the loop. -/
def lenLoop (mem : List UInt8) : Nat → Nat → Nat → Outcome Nat
  | 0, _, _ => hang
  | fuel + 1, p, len =>
    if len = 0 then ok (2 ^ 32 - 1)                             -- len-- wraps
    else do
      let len := len - 1
      let oclen ← rd mem p
      let p := p + 1
      if oclen.toNat > 63 ∨ oclen.toNat > len then err .invalidLengthOctet
      else if oclen = 0 then ok len
      else lenLoop mem fuel (p + oclen.toNat) (len - oclen.toNat)

/-- `wdns_len_uname` — wdns/len_uname.c:30-55; `olen`, `len` are `uint32_t`. -/
def lenUname (mem : List UInt8) (p eop : Nat) : Outcome Nat :=
  let olen := (eop - p) % 2 ^ 32
  if p ≥ eop then err .overflow
  else do
    let len ← lenLoop mem (olen + 1) p olen
    let sz := (olen + 2 ^ 32 - len) % 2 ^ 32
    if sz > maxlenName then err .nameLen
    else ok sz

/-! ## Names as `wdns_name_t` — wdns/wdns.h.in:204-207 -/

/-- `wdns_name_t`: `len` is the field, `data` the bytes readable through the pointer. -/
structure CName where
  len : Nat
  data : List UInt8
  deriving DecidableEq, Repr

/-! ## wdns_count_labels — wdns/count_labels.c:28-48 -/

/-- The loop of wdns/count_labels.c:36-45; `pos = data - name->data`. -/
def countLoop (name : CName) : Nat → Nat → Nat → Outcome Nat
  | 0, _, _ => hang
  | fuel + 1, pos, n => do
    let c ← rd name.data pos
    let pos := pos + 1
    if c = 0 then ok n
    else if c.toNat ≤ 63 then
      let n := n + 1
      let pos := pos + c.toNat
      if pos > name.len then err .nameOverflow
      else countLoop name fuel pos n
    else err .invalidLengthOctet

/-- `wdns_count_labels` — wdns/count_labels.c:28-48. -/
def countLabels (name : CName) : Outcome Nat := countLoop name (name.len + 1) 0 0

/-! ## wdns_left_chop — wdns/left_chop.c:17-36 -/

/-- `wdns_left_chop` — wdns/left_chop.c:17-36.  `oclen > name->len - 1` is a comparison of
`int`s, written `oclen + 1 > len`; the new `data` pointer is `data + oclen + 1`. -/
def leftChop (name : CName) : Outcome CName := do
  let oclen ← rd name.data 0
  if oclen = 0 ∧ name.len = 1 then ok { len := 1, data := name.data }
  else if oclen.toNat + 1 > name.len then err .nameOverflow
  else ok { len := name.len - oclen.toNat - 1, data := name.data.drop (oclen.toNat + 1) }

/-! ## wdns_reverse_name — wdns/reverse_name.c:17-39 -/

/-- The loop of wdns/reverse_name.c:27-36.  `rev` is the caller's buffer of `lenName` bytes,
`pos` the offset of the pointer `rev_name` in it (may become negative: writing there is `ub`). -/
def reverseLoop (name : List UInt8) (lenName : Nat) :
    Nat → Nat → Int → Nat → List UInt8 → Outcome (List UInt8)
  | 0, _, _, _, _ => hang
  | fuel + 1, p, pos, total, rev => do
    let c ← rd name p
    if c = 0 then ok rev
    else
      let len := c.toNat + 1
      let total := total + len
      if total > lenName then err .outOfBounds
      else
        let pos := pos - (len : Int)
        let bs ← rdN name p len
        if 0 ≤ pos ∧ pos.toNat + len ≤ rev.length then
          reverseLoop name lenName fuel (p + len) pos total
            (rev.take pos.toNat ++ bs ++ rev.drop (pos.toNat + len))
        else ub

/-- `wdns_reverse_name` — wdns/reverse_name.c:17-39.  The buffer `rev_name` is exactly
`lenName` bytes; it is zeroed first. -/
def reverseName (name : List UInt8) (lenName : Nat) : Outcome (List UInt8) :=
  reverseLoop name lenName (lenName + 1) 0 ((lenName : Int) - 1) 0 (List.replicate lenName 0)

/-! ## wdns_downcase_name — wdns/downcase_name.c:23-34 -/

/-- The loop of wdns/downcase_name.c:29-33 over the remaining `len` bytes. -/
def downcaseBytes : Nat → List UInt8 → Outcome (List UInt8)
  | 0, data => ok data
  | _ + 1, [] => ub
  | len + 1, b :: data => do
    let b' := if b.toNat ≥ 65 ∧ b.toNat ≤ 90 then b ||| 0x20 else b
    let rest ← downcaseBytes len data
    ok (b' :: rest)

/-- `wdns_downcase_name` — wdns/downcase_name.c:23-34. -/
def downcaseName (name : CName) : Outcome CName := do
  let d ← downcaseBytes name.len name.data
  ok { name with data := d }

/-! ## wdns_is_subdomain — wdns/is_subdomain.c -/

/-- The loop of `gen_label_offsets`, wdns/is_subdomain.c:25-37.  Offsets are `uint8_t`. -/
def offsetsLoop (name : CName) (nLabels : Nat) : Nat → Nat → List Nat → Outcome (List Nat)
  | 0, _, _ => hang
  | fuel + 1, pos, offs => do
    let c ← rd name.data pos
    if c = 0 then ok offs
    else if c.toNat ≤ 63 then
      let offs := offs ++ [pos % 256]
      if offs.length = nLabels then ok offs
      else
        let pos := pos + c.toNat
        if pos > name.len then err .nameOverflow
        else offsetsLoop name nLabels fuel (pos + 1) offs
    else err .invalidLengthOctet

/-- `gen_label_offsets` — wdns/is_subdomain.c:17-39, on an `offsets` array of `nLabels`
entries that the caller has zeroed (wdns/is_subdomain.c:99-102). -/
def genLabelOffsets (name : CName) (nLabels : Nat) : Outcome (List Nat) := do
  let offs ← offsetsLoop name nLabels (name.len + 2) 0 []
  ok (offs ++ List.replicate (nLabels - offs.length) 0)

/-- `compare_label` — wdns/is_subdomain.c:41-50. -/
def compareLabel (d0 : List UInt8) (o0 : Nat) (d1 : List UInt8) (o1 : Nat) : Outcome Bool := do
  let len0 ← rd d0 o0
  let len1 ← rd d1 o1
  if len0 = len1 then
    let b0 ← rdN d0 (o0 + 1) len0.toNat
    let b1 ← rdN d1 (o1 + 1) len0.toNat
    ok (b0 == b1)
  else ok false

/-- The `do ... while (n1_idx >= 0)` loop, wdns/is_subdomain.c:115-128, over the reversed
offset arrays (`n0_offsets`, `n1_offsets` are read from the last index downwards;
`n0_idx` cannot run out first because `n0_nlabels > n1_nlabels`). -/
def compareLoop (d0 d1 : List UInt8) : List Nat → List Nat → Outcome Bool
  | _, [] => ok true
  | [], _ :: _ => ub
  | o0 :: r0, o1 :: r1 => do
    let eq ← compareLabel d0 o0 d1 o1
    if eq then compareLoop d0 d1 r0 r1 else ok false

/-- Replace any error by `wdns_res_parse_error` (wdns/is_subdomain.c:75-81). -/
def asParseError {α} : Outcome α → Outcome α
  | err _ => err .parseError
  | o => o

/-- `wdns_is_subdomain` — wdns/is_subdomain.c:65-129; returns `*is_subdomain`. -/
def isSubdomain (n0 n1 : CName) : Outcome Bool := do
  let k0 ← asParseError (countLabels n0)
  let k1 ← asParseError (countLabels n1)
  if k0 ≤ k1 then ok false
  else if k0 = 0 then ok false
  else if k1 = 0 then ok true
  else
    let offs0 ← asParseError (genLabelOffsets n0 k0)
    let offs1 ← asParseError (genLabelOffsets n1 k1)
    compareLoop n0.data n1.data offs0.reverse offs1.reverse

/-! ## wdns_domain_to_str — wdns/domain_to_str.c:27-66 -/

/-- Three decimal digits of an octet (C: `"%.3d"`). -/
def dec3 (c : UInt8) : List UInt8 :=
  [UInt8.ofNat (48 + c.toNat / 100), UInt8.ofNat (48 + c.toNat / 10 % 10),
   UInt8.ofNat (48 + c.toNat % 10)]

/-- The inner `while (oclen-- && bytes_remaining > 0)` loop, wdns/domain_to_str.c:43-56.
Returns `src`, `bytes_remaining` and the text written so far.
`snprintf(dst, 5, ...)` writes five bytes (four characters and a NUL that is overwritten next). -/
def dtsInner (cap : Nat) (mem : List UInt8) :
    Nat → Nat → Nat → List UInt8 → Outcome (Nat × Nat × List UInt8)
  | 0, src, rem, out => ok (src, rem, out)
  | oclen + 1, src, rem, out =>
    if rem > 0 then do
      let c ← rd mem src
      let src := src + 1
      let rem := rem - 1
      if c.toNat = 46 ∨ c.toNat = 92 then                       -- '.' or '\\'
        let out ← wrN cap out [92, c]
        dtsInner cap mem oclen src rem out
      else if c.toNat ≥ 33 ∧ c.toNat ≤ 126 then                 -- '!' .. '~'
        let out ← wr cap out c
        dtsInner cap mem oclen src rem out
      else if out.length + 5 ≤ cap then
        dtsInner cap mem oclen src rem (out ++ 92 :: dec3 c)    -- "\\%.3d"
      else ub
    else ok (src, rem, out)

/-- The outer loop, wdns/domain_to_str.c:36-59; returns `bytes_read` and the text. -/
def dtsOuter (cap : Nat) (mem : List UInt8) :
    Nat → Nat → Nat → UInt8 → Nat → List UInt8 → Outcome (Nat × List UInt8)
  | 0, _, _, _, _, _ => hang
  | fuel + 1, src, rem, oclen, bytesRead, out =>
    if rem > 0 ∧ oclen ≠ 0 then do
      let src := src + 1
      let rem := rem - 1
      let bytesRead := bytesRead + (oclen.toNat + 1)
      let (src, rem, out) ← dtsInner cap mem oclen.toNat src rem out
      let out ← wr cap out 46                                   -- '.'
      let oclen ← rd mem src
      dtsOuter cap mem fuel src rem oclen bytesRead out
    else ok (bytesRead, out)

/-- `wdns_domain_to_str` — wdns/domain_to_str.c:27-66, with a `dst` of `cap` bytes.
Returns the return value and the NUL-terminated text (without the NUL). -/
def domainToStr (cap : Nat) (mem : List UInt8) (srcLen : Nat) : Outcome (Nat × List UInt8) := do
  let oclen ← rd mem 0
  let (bytesRead, out) ← dtsOuter cap mem (srcLen + 1) 0 srcLen oclen 0 []
  let out ← if bytesRead = 0 then wr cap out 46 else ok out
  let _ ← wr cap out 0                                          -- *dst = '\0'
  ok (bytesRead + 1, out)

/-! ## _wdns_str_to_name — wdns/str_to_name.c:26-137 -/

/-- `is_digit` — wdns/str_to_name.c:18-24. -/
def isDigit (c : UInt8) : Bool := 48 ≤ c.toNat && c.toNat ≤ 57

/-- The `for (;;)` loop, wdns/str_to_name.c:48-130.

* `p` = offset of `p` in `str`; `slen` as in C (`ssize_t`); `labelLen` = `label_len`;
* `len` = `name->len`; `data` = bytes of the allocated block (`cap` bytes) up to the pointer `data`;
* `oc` = offset of the length octet `oclen` of the current label.
The statement `oclen = data++` reserves an octet that is written later; the model writes a
zero there at once. -/
def stnLoop (cap : Nat) (str : List UInt8) (downcase : Bool) :
    Nat → Nat → Int → Nat → Nat → List UInt8 → Nat → Outcome CName
  | 0, _, _, _, _, _, _ => hang
  | fuel + 1, p, slen, labelLen, len, data, oc => do
    let c ← rdS str p                                           -- c = *p++
    let p := p + 1
    let labelLen := labelLen + 1
    if slen = 0 then
      if len = maxlenName then err .nameOverflow
      else
        let data := data.set oc (UInt8.ofNat (labelLen - 1))    -- *oclen = --label_len
        let data ← wr cap data 0
        ok { len := len + 1, data := data }
    else if len ≥ maxlenName then err .nameOverflow
    else if c.toNat ≥ 65 ∧ c.toNat ≤ 90 then
      let c := if downcase then c ||| 0x20 else c
      let data ← wr cap data c
      stnLoop cap str downcase fuel p (slen - 1) labelLen (len + 1) data oc
    else if c.toNat = 92 then
      let d0 ← rdS str p
      if !isDigit d0 then
        if slen ≤ 0 then err .parseError
        else
          let data ← wr cap data d0
          stnLoop cap str downcase fuel (p + 1) (slen - 1 - 1) labelLen (len + 1) data oc
      else if slen ≥ 3 then
        let d1 ← rdS str (p + 1)
        let d2 ← rdS str (p + 2)
        if !isDigit d0 || !isDigit d1 || !isDigit d2 then err .parseError
        else
          let val := (d0.toNat - 48) * 100 + (d1.toNat - 48) * 10 + (d2.toNat - 48)
          if val ≤ 255 then
            let data ← wr cap data (UInt8.ofNat val)
            stnLoop cap str downcase fuel (p + 3) (slen - 3 - 1) labelLen (len + 1) data oc
          else err .parseError
      else err .parseError
    else if c.toNat = 46 then
      let labelLen := labelLen - 1
      let data := data.set oc (UInt8.ofNat labelLen)            -- *oclen = --label_len
      if labelLen = 0 then err .parseError
      else
        let oc := data.length
        let data ← wr cap data 0                         -- oclen = data++
        if slen = 1 then
          ok { len := len + 1, data := data.set oc 0 }          -- *oclen = 0
        else stnLoop cap str downcase fuel p (slen - 1) 0 (len + 1) data oc
    else if c ≠ 0 then
      let data ← wr cap data c
      stnLoop cap str downcase fuel p (slen - 1) labelLen (len + 1) data oc
    else
      stnLoop cap str downcase fuel p (slen - 1) labelLen len data oc

/-- `_wdns_str_to_name` — wdns/str_to_name.c:26-137.  `str` holds the characters before the
NUL.  The block has
`WDNS_MAXLEN_NAME` bytes (line 44).  On failure it is freed and only the code is returned. -/
def strToNameGen (str : List UInt8) (downcase : Bool) : Outcome CName :=
  if str.length = 0 ∨ (str.length = 1 ∧ str.head? = some 46) then ok { len := 1, data := [0] }
  else stnLoop maxlenName str downcase (str.length + 2) 0 str.length 0 1 [0] 0

/-- `wdns_str_to_name` — wdns/str_to_name.c:139-143. -/
def strToName (str : List UInt8) : Outcome CName := strToNameGen str true

/-- `wdns_str_to_name_case` — wdns/str_to_name.c:145-149. -/
def strToNameCase (str : List UInt8) : Outcome CName := strToNameGen str false

end Wdns
