import Verif.Model.ToText
import Mathlib.Data.List.Sort

/-!
# Model: reading rdata from text — wdns/str_to_rdata_ubuf.c

The text is a C string: a list of octets without NUL, the terminator being the end of the list.  A pointer into the text is
the list of the remaining octets.  The growable buffer is its contents (see `Model/Ubuf.lean` for the buffer itself).
Reading a variable that was not initialised is `ub`.  Allocation failure is not modelled.
-/

namespace Wdns
open Outcome

/-- The loop of `rdata_from_str_string` — wdns/str_to_rdata_ubuf.c:32-69.  Result: whether the string was accepted, the
number of characters consumed, the buffer.  `q` is `is_quoted`. -/
def fssLoop (q : Bool) : List UInt8 → List UInt8 → Nat → Bool × Nat × List UInt8
  | [], u, n => (!q, n, u)
  | c :: cs, u, n =>
    if q ∧ c = 34 then (true, n + 1, u)
    else if ¬ q ∧ isSpace c then (true, n, u)
    else if c = 92 then
      match cs with
      | [] => (false, n, u)
      | d :: ds =>
        if d = 34 ∨ d = 92 then fssLoop q ds (u ++ [d]) (n + 2)
        else if isDigit d then
          match ds with
          | e :: f :: fs =>
            if isDigit e ∧ isDigit f then
              let v := 100 * (d.toNat - 48) + 10 * (e.toNat - 48) + (f.toNat - 48)
              if v > 255 then (false, n, u) else fssLoop q fs (u ++ [UInt8.ofNat v]) (n + 4)
            else (false, n, u)
          | _ => (false, n, u)
        else (false, n, u)
    else if 32 ≤ c.toNat ∧ c.toNat ≤ 126 then fssLoop q cs (u ++ [c]) (n + 1)
    else (false, n, u)

/-- `rdata_from_str_string` — wdns/str_to_rdata_ubuf.c:20-79: the return value and the buffer.  An error clips the buffer
to its original size and returns 0. -/
def rdataFromStrString (s u : List UInt8) : Nat × List UInt8 :=
  let r := if s.head? = some 34 then fssLoop true (s.drop 1) u 1 else fssLoop false s u 0
  if r.1 then r.2 else (0, r.2.2.take u.length)

/-- `str_to_ubuf` — wdns/str_to_rdata_ubuf.c:103-131: the result, the text at `*retp`, the buffer. -/
def strToUbuf (s u : List UInt8) : Res × List UInt8 × List UInt8 :=
  let r := rdataFromStrString s (u ++ [0])
  if r.1 = 0 then (.parseError, s, r.2)
  else
    let len := r.2.length - u.length - 1
    if len > 255 then (.parseError, s, r.2)
    else (.success, s.drop r.1, r.2.set u.length (UInt8.ofNat len))

/-- `htons` of a 16-bit value, as bytes in memory. -/
def htons (n : Nat) : List UInt8 := [UInt8.ofNat (n / 256), UInt8.ofNat (n % 256)]

/-- `case spr_mandatory`, the `do … while` — wdns/str_to_rdata_ubuf.c:183-191: result, `val_len`, buffer. -/
def svcMandTok : List (List UInt8) → Nat → List UInt8 → Res × Nat × List UInt8
  | [], n, u => (.success, n, u)
  | tok :: toks, n, u =>
    let k := strToSvcparamkey tok
    if k = 65535 then (.parseError, n, u) else svcMandTok toks ((n + 2) % 65536) (u ++ htons k)

/-- `case spr_ipv4hint`/`spr_ipv6hint`, the `do … while` — wdns/str_to_rdata_ubuf.c:251-258. -/
def svcIpTok (pton : List UInt8 → Option (List UInt8)) (sz : Nat) :
    List (List UInt8) → Nat → List UInt8 → Res × Nat × List UInt8
  | [], n, u => (.success, n, u)
  | tok :: toks, n, u =>
    match pton tok with
    | none => (.parseError, n, u)
    | some a => svcIpTok pton sz toks ((n + sz) % 65536) (u ++ a)

/-- `case spr_alpn`, the loop and the final length — wdns/str_to_rdata_ubuf.c:285-326.  `off` is the place of the current
length byte, `oc` the `uint8_t oclen`, `n` the `uint16_t val_len`. -/
def svcAlpnTok : List UInt8 → Nat → Nat → Nat → List UInt8 → Res × Nat × List UInt8
  | [], off, oc, n, u =>
    if oc ≠ 0 then (.success, (n + oc + 1) % 65536, u.set off (UInt8.ofNat oc)) else (.success, n, u)
  | c :: cs, off, oc, n, u =>
    if c = 92 then
      match cs with
      | [] => (.parseError, n, u)
      | d :: ds =>
        if d ≠ 92 ∧ d ≠ 44 then (.parseError, n, u)
        else svcAlpnTok ds off ((oc + 1) % 256) n (u ++ [d])
    else if c = 44 then
      svcAlpnTok cs u.length 0 ((n + oc + 1) % 65536) (u.set off (UInt8.ofNat oc) ++ [0])
    else svcAlpnTok cs off ((oc + 1) % 256) n (u ++ [c])

/-- `case spr_port` — wdns/str_to_rdata_ubuf.c:194-217. -/
def svcPortTok (cval u : List UInt8) : Res × Nat × List UInt8 :=
  match (strtok (· = 32) cval []).head? with
  | none => (.parseError, 0, u)
  | some tok =>
    let r := strtoul tok
    if r.2 ≠ [] ∨ r.1 > 65535 then (.parseError, 0, u) else (.success, 2, u ++ htons r.1)

/-- `case spr_ech` — wdns/str_to_rdata_ubuf.c:218-233. -/
def svcEchTok (cval u : List UInt8) : Outcome (Res × Nat × List UInt8) :=
  match (strtok (· = 32) cval []).head? with
  | none => ok (.parseError, 0, u)
  | some tok =>
    if tok.length > 255 then ok (.parseError, 0, u)
    else do
      let b ← base64StrToBytes tok
      ok (.success, b.length % 65536, u ++ b)

/-- The `switch` of `str_to_svcparam` — wdns/str_to_rdata_ubuf.c:175-331.  `val` is the unescaped value; the cases that use
`strtok_r` see it up to its first NUL. -/
def svcValue (key : Nat) (val u : List UInt8) : Outcome (Res × Nat × List UInt8) :=
  let cval := cstrOf val
  if key = 0 then
    ok (if strtok (· = 44) cval [] = [] then (.parseError, 0, u) else svcMandTok (strtok (· = 44) cval []) 0 u)
  else if key = 3 then ok (svcPortTok cval u)
  else if key = 5 then svcEchTok cval u
  else if key = 4 then
    ok (if strtok (· = 44) cval [] = [] then (.parseError, 0, u) else svcIpTok inetPton4 4 (strtok (· = 44) cval []) 0 u)
  else if key = 6 then
    ok (if strtok (· = 44) cval [] = [] then (.parseError, 0, u) else svcIpTok inetPton6 16 (strtok (· = 44) cval []) 0 u)
  else if key = 1 then ok (svcAlpnTok val u.length 0 0 (u ++ [0]))
  else ok (.success, val.length % 65536, u ++ val)

/-- Two octets stored at a place of the buffer (`memcpy(&ubuf_data(u)[off], …, 2)`). -/
def poke2 (u : List UInt8) (off : Nat) (b : List UInt8) : List UInt8 :=
  (u.set off (b.getD 0 0)).set (off + 1) (b.getD 1 0)

/-- `str_to_svcparam` — wdns/str_to_rdata_ubuf.c:140-341; `val` is `none` for a NULL pointer. -/
def strToSvcparam (u : List UInt8) (key : Nat) (val : Option (List UInt8)) : Outcome (Res × List UInt8) :=
  if key = 65535 then abort                                             -- assert
  else
    let u1 := u ++ htons key
    if key = 2 then
      match val with
      | some _ => ok (.parseError, u1)
      | none => ok (.success, u1 ++ [0, 0])
    else
      match val with
      | none => ub                                                      -- not called like this
      | some v => do
        let (r, n, u2) ← svcValue key v (u1 ++ [0, 0])
        if r ≠ .success then ok (r, u2) else ok (.success, poke2 u2 u1.length (htons n))

/-- What one field does: continue at a place of the text (`none`: `str` is NULL) with a buffer, or `goto err`. -/
inductive FRes where
  | go (str : Option (List UInt8)) (u : List UInt8)
  | bad (r : Res) (u : List UInt8)
  deriving DecidableEq, Repr

/-- The characters `strpbrk(str, " \t\r\n")` looks for. -/
def isDelim (c : UInt8) : Bool := c = 32 ∨ c = 9 ∨ c = 13 ∨ c = 10

/-- The text before `strpbrk(str, " \t\r\n")`, or all of it. -/
def tokOf (s : List UInt8) : List UInt8 := s.takeWhile fun c => !isDelim c

/-- The text from `strpbrk(str, " \t\r\n")`; at the end of the text if there is none. -/
def afterTok (s : List UInt8) : List UInt8 := s.dropWhile fun c => !isDelim c

/-- `strpbrk(str, " \t\r\n")`: `none` if there is none. -/
def endPtr (s : List UInt8) : Option (List UInt8) := if afterTok s = [] then none else some (afterTok s)

/-- `case rdf_bytes` — wdns/str_to_rdata_ubuf.c:473-487. -/
def sBytes : List UInt8 → List UInt8 → Outcome FRes
  | [], u => ok (.go (some []) u)
  | [_], u => ok (.bad .parseError u)
  | c :: d :: s, u =>
    match scanfHex2 (c :: d :: s) with
    | .eof => ub                                                        -- `c` is not initialised
    | .nomatch => ok (.bad .parseError u)
    | .val b => sBytes s (u ++ [b])

/-- The octets of the generic form — wdns/str_to_rdata_ubuf.c:392-412: the number of octets read, or the error. -/
def sGeneric : List UInt8 → Nat → List UInt8 → Outcome (Option Nat × List UInt8)
  | [], n, u => ok (some n, u)
  | c :: cs, n, u =>
    if isSpace c then sGeneric cs n u
    else
      match cs with
      | [] => ok (none, u)
      | d :: s =>
        match scanfHex2 (c :: d :: s) with
        | .eof => ub
        | .nomatch => ok (none, u)
        | .val b => sGeneric s (n + 1) (u ++ [b])

/-- `case rdf_salt`, the loop — wdns/str_to_rdata_ubuf.c:596-605. -/
def sSalt : Nat → List UInt8 → List UInt8 → Outcome FRes
  | 0, s, u => ok (.go (some s) u)
  | n + 1, s, u =>
    match scanfHex2 s with
    | .eof => ub                                                        -- `c` is not initialised
    | .nomatch => ok (.bad .parseError u)
    | .val b => sSalt n (s.drop 2) (u ++ [b])

/-- `case rdf_int8`, `rdf_int16`, `rdf_int32` — wdns/str_to_rdata_ubuf.c:645-757, for a value of `bytes` octets. -/
def sInt (bytes : Nat) (s u : List UInt8) : Outcome FRes :=
  if (tokOf s).all isDigit then
    match scanfU 64 s with
    | .eof => ub                                                        -- `s_val` is not initialised
    | .nomatch => ok (.go (some (afterTok s)) u)
    | .val v =>
      if v ≥ 256 ^ bytes then ok (.bad .parseError u)
      else ok (.go (some (afterTok s))
        (u ++ ((List.range bytes).map fun i => UInt8.ofNat (v / 256 ^ (bytes - 1 - i)))))
  else ok (.bad .parseError u)

/-- The check and the conversion of an EUI — wdns/str_to_rdata_ubuf.c:812-835, 838-862: pairs of hexadecimal digits
separated by `-`.  After the check every conversion of the `sscanf` succeeds. -/
def euiScan : Nat → List UInt8 → Option (List UInt8)
  | 0, _ => some []
  | n + 1, s =>
    match s with
    | a :: b :: rest =>
      match hexDigitValue a, hexDigitValue b with
      | some x, some y =>
        if n = 0 then some [UInt8.ofNat (16 * x + y)]
        else if rest.head? = some 45 then (euiScan n (rest.drop 1)).map (UInt8.ofNat (16 * x + y) :: ·) else none
      | _, _ => none
    | _ => none

/-- `case rdf_eui48`, `case rdf_eui64`, for `n` octets. -/
def sEui (n : Nat) (s u : List UInt8) : Outcome FRes :=
  if s.length ≠ 3 * n - 1 then ok (.bad .parseError u)
  else
    match euiScan n s with
    | none => ok (.bad .parseError u)
    | some bs => ok (.go (some []) (u ++ bs))

/-- `case rdf_repstring` — wdns/str_to_rdata_ubuf.c:876-910. -/
def sRepstring : Nat → List UInt8 → List UInt8 → Outcome FRes
  | 0, _, _ => hang
  | fuel + 1, s, u =>
    match s with
    | [] => ok (.go (some []) u)
    | c :: cs =>
      if isSpace c then sRepstring fuel cs u
      else
        let r := rdataFromStrString s (u ++ [0])
        if r.1 = 0 then ok (.bad .parseError r.2)
        else
          let len := r.2.length - u.length - 1
          if len > 255 then ok (.bad .parseError r.2)
          else sRepstring fuel (s.drop r.1) (r.2.set u.length (UInt8.ofNat len))

/-- `case rdf_svcparams`, the loop — wdns/str_to_rdata_ubuf.c:948-1038. -/
def sSvcparams : Nat → List UInt8 → List UInt8 → Outcome FRes
  | 0, _, _ => hang
  | fuel + 1, s, u =>
    match s with
    | [] => ok (.go (some []) u)
    | c :: cs =>
      if c = 32 then sSvcparams fuel cs u
      else
        let key := s.takeWhile fun c => c ≠ 61 ∧ c ≠ 32
        let val := s.drop key.length
        let k := strToSvcparamkey key
        if k = 65535 then ok (.bad .parseError u)
        else if val = [] ∨ val.head? = some 32 then
          if k ≠ 2 then ok (.bad .parseError u)
          else do
            let (r, u) ← strToSvcparam u k none
            if r ≠ .success then ok (.bad r u) else sSvcparams fuel val u
        else
          let val := val.drop 1
          let r := rdataFromStrString val u
          if r.1 = 0 then ok (.bad .parseError r.2)
          else do
            let (r', u) ← strToSvcparam (r.2.take u.length) k (some (r.2.drop u.length))
            if r' ≠ .success then ok (.bad r' u) else sSvcparams fuel (val.drop r.1) u

/-- `case rdf_type_bitmap`, reading the list of types — wdns/str_to_rdata_ubuf.c:1057-1082: the types in the order of the
text, or the error. -/
def sTypes : Nat → Option (List UInt8) → Outcome (Option (List Nat))
  | 0, _ => hang
  | _ + 1, none => ok (some [])
  | fuel + 1, some s =>
    match s with
    | [] => ok (some [])
    | c :: cs =>
      if isSpace c then sTypes fuel (some cs)
      else do
        let t ← strToRrtype (tokOf s)
        if t = 0 ∧ casecmp (tokOf s) (ascii "TYPE0") ≠ .eq then ok none
        else do
          let r ← sTypes fuel (endPtr s)
          ok (r.map (t :: ·))

/-- `qsort` with `cmp_u16` — wdns/str_to_rdata_ubuf.c:343-348, 1083: the sequence in ascending order. -/
def qsort16 (l : List Nat) : List Nat := l.insertionSort (· ≤ ·)

/-- A window written to the buffer — wdns/str_to_rdata_ubuf.c:1102-1104, 1119-1121. -/
def putWindow (win blen : Nat) (bitmap u : List UInt8) : List UInt8 :=
  u ++ [UInt8.ofNat win, UInt8.ofNat blen] ++ bitmap.take blen

/-- The loop over the sorted types — wdns/str_to_rdata_ubuf.c:1090-1122. -/
def bmLoop : List Nat → Nat → Nat → List UInt8 → Nat → List UInt8 → List UInt8
  | [], win, blen, bitmap, _, u => if blen ≠ 0 then putWindow win blen bitmap u else u
  | t :: ts, win, blen, bitmap, last, u =>
    if t = last then bmLoop ts win blen bitmap last u
    else
      let cur := t / 256
      let off := t % 256
      let byte := off / 8
      let bit := off % 8
      if cur ≠ win then
        bmLoop ts cur (1 + byte) ((List.replicate 32 0).set byte (0x80 >>> UInt8.ofNat bit)) t
          (if blen > 0 then putWindow win blen bitmap u else u)
      else bmLoop ts win (1 + byte) (bitmap.set byte (bitmap.getD byte 0 ||| 0x80 >>> UInt8.ofNat bit)) t u

/-- `case rdf_type_bitmap` — wdns/str_to_rdata_ubuf.c:1041-1126. -/
def sBitmap (s u : List UInt8) : Outcome FRes := do
  match ← sTypes (s.length + 2) (some s) with
  | none => ok (.bad .parseError u)
  | some ts => ok (.go none (bmLoop (qsort16 ts) 0 0 (List.replicate 32 0) 65536 u))

/-- `case rdf_ipv6prefix` after the prefix length — wdns/str_to_rdata_ubuf.c:536-575; `s` is the text after the prefix
length and the white space that follows it. -/
def sPrefixAddr (pl : Nat) (s u : List UInt8) : Outcome FRes :=
  if s = [] then ok (.bad .parseError u)
  else
    let oclen := (128 - pl) / 8 + (if pl % 8 ≠ 0 then 1 else 0)
    match inetPton6 (tokOf s) with
    | some addr =>
      let u := u ++ addr.drop (16 - oclen)
      if pl = 0 ∧ endPtr s ≠ none then
        if (afterTok s).dropWhile isSpace ≠ [] then ok (.bad .parseError u) else ok (.go none u)
      else ok (.go (endPtr s) u)
    | none => if pl ≠ 128 then ok (.bad .parseError u) else ok (.go (some s) u)

/-- `case rdf_ipv6prefix` — wdns/str_to_rdata_ubuf.c:510-575. -/
def sPrefix (s u : List UInt8) : Outcome FRes :=
  if (tokOf s).all isDigit then
    match scanfU 8 s with
    | .eof => ub                                                        -- `prefix_len` is not initialised
    | .nomatch => ok (.bad .parseError u)
    | .val pl =>
      if pl > 128 then ok (.bad .parseError u)
      else sPrefixAddr pl ((afterTok s).dropWhile isSpace) (u ++ [UInt8.ofNat pl])
  else ok (.bad .parseError u)

/-- One field: the `switch` of wdns/str_to_rdata_ubuf.c:438-1131, at a text that is not empty and does not start with white
space. -/
def sField (t : Rdf) (s u : List UInt8) : Outcome FRes :=
  match t with
  | .name | .uname =>                                                   -- lines 439-471
    match strToNameCase (tokOf s) with
    | ok n => ok (.go (endPtr s) (u ++ n.data))
    | err r => ok (.bad r u)
    | ub => ub
    | hang => hang
    | abort => abort
  | .bytes => sBytes s u
  | .bytesB64 => do                                                     -- lines 489-492
    let b ← base64StrToBytes s
    ok (.go (some (s.drop b.length)) (u ++ b))
  | .bytesStr =>                                                        -- lines 494-508
    if s.length ≥ 3 ∧ s.head? = some 34 ∧ s.getLast? = some 34 then
      let r := rdataFromStrString s u
      if r.1 = 0 then ok (.bad .parseError r.2) else ok (.go (some []) r.2)
    else ok (.bad .parseError u)
  | .ipv6prefix => sPrefix s u
  | .salt =>                                                            -- lines 577-608
    if tokOf s = [45] then ok (.go (some (s.drop 1)) (u ++ [0]))
    else if (tokOf s).length > 510 ∨ (tokOf s).length % 2 = 1 then ok (.bad .parseError u)
    else sSalt ((tokOf s).length / 2) s (u ++ [UInt8.ofNat ((tokOf s).length / 2)])
  | .hash =>                                                            -- lines 610-643
    if (tokOf s).length = 1 then ok (.go (some (s.drop 1)) (u ++ [0]))
    else
      match base32Decode (tokOf s).length (tokOf s) with
      | none => ok (.bad .parseError u)
      | some b =>
        if b.length > 255 then ok (.bad .parseError u)
        else ok (.go (some (afterTok s)) (u ++ [UInt8.ofNat b.length] ++ b))
  | .int8 => sInt 1 s u
  | .int16 => sInt 2 s u
  | .int32 => sInt 4 s u
  | .ipv4 =>                                                            -- lines 759-785
    match inetPton4 (tokOf s) with
    | none => ok (.bad .parseError u)
    | some a => ok (.go (some (afterTok s)) (u ++ a))
  | .ipv6 =>                                                            -- lines 787-810
    match inetPton6 (tokOf s) with
    | none => ok (.bad .parseError u)
    | some a => ok (.go (endPtr s) (u ++ a))
  | .eui48 => sEui 6 s u
  | .eui64 => sEui 8 s u
  | .string =>                                                          -- lines 864-873
    let r := strToUbuf s u
    if r.1 ≠ .success then ok (.bad r.1 r.2.2) else ok (.go (some r.2.1) r.2.2)
  | .repstring => sRepstring (s.length + 1) s u
  | .rrtype => do                                                       -- lines 912-935
    let t ← strToRrtype (tokOf s)
    if t = 0 then ok (.bad .parseError u) else ok (.go (endPtr s) (u ++ htons t))
  | .svcparams => sSvcparams (s.length + 1) s u
  | .typeBitmap => sBitmap s u
  | .ednsOptRdata => ok (.bad .failure u)                               -- the `default` case, lines 1127-1130

/-- The loop over the field types — wdns/str_to_rdata_ubuf.c:424-1132. -/
def sFields : List Rdf → Option (List UInt8) → List UInt8 → Outcome FRes
  | [], s, u => ok (.go s u)
  | _ :: _, none, u => ok (.go none u)
  | t :: ts, some s, u =>
    if s.dropWhile isSpace = [] then ok (.go (some []) u)
    else do
      match ← sField t (s.dropWhile isSpace) u with
      | .go s u => sFields ts s u
      | .bad r u => ok (.bad r u)

/-- The generic encoding — wdns/str_to_rdata_ubuf.c:360-417. -/
def sUnknown (s u : List UInt8) : Outcome FRes :=
  if s.take 2 ≠ ascii "\\#" then ok (.bad .parseError u)
  else
    let s := s.drop 2
    if (s.head?.map isSpace).getD false then
      let s := s.dropWhile isSpace
      let tok := s.takeWhile fun c => !isSpace c
      if tok.all isDigit then
        match scanfU 16 s with
        | .eof => ub                                                    -- `rdlen` is not initialised
        | .nomatch => ok (.bad .parseError u)
        | .val rdlen => do
          let r ← sGeneric (s.drop tok.length) 0 u
          if r.1 = some rdlen then ok (.go (some []) r.2) else ok (.bad .parseError r.2)
      else ok (.bad .parseError u)
    else ok (.bad .parseError u)

/-- `_wdns_str_to_rdata_ubuf` — wdns/str_to_rdata_ubuf.c:350-1139: the result and the buffer. -/
def strToRdataUbuf (u s : List UInt8) (rrtype rrclass : Nat) : Outcome (Res × List UInt8) := do
  let r ← (match recordDescr rrtype with
    | none => sUnknown s u
    | some d => if d.applies rrclass then sFields d.types (some s) u else ok (.go (some s) u))
  match r with
  | .go _ u => ok (.success, u)
  | .bad e u' => ok (e, u'.take u.length)                               -- err: ubuf_clip(u, u_orig_size)

/-- `wdns_str_to_rdata` — wdns/rdata_to_str.c:33-47: the octets handed out. -/
def strToRdata (s : List UInt8) (rrtype rrclass : Nat) : Outcome (List UInt8) := do
  let r ← strToRdataUbuf [] s rrtype rrclass
  if r.1 = .success then ok r.2 else err r.1

end Wdns
