import Verif.Basic

/-!
# Environment model: the C library functions wdns calls to read text

These are not part of the repository.  The definitions follow the GNU C library (2.26 and later) and are part of
the trusted base: `inet_pton(3)`, `strtol(3)`, `strtoul(3)`, the `%u`-like conversions of `printf(3)`, `isspace(3)`
in the C locale, `sscanf(3)` with one integer conversion, `isdigit(3)`, `isxdigit(3)`.
-/

namespace Wdns

/-- The state of glibc `inet_pton4` (resolv/inet_pton.c): finished octets, the octet being read (`*tp`), and
`saw_digit`.  `octets` of the C code is `done.length` plus one if a digit of the current octet was seen. -/
def pton4Loop : List UInt8 → List UInt8 → Nat → Bool → Option (List UInt8)
  | [], done, cur, saw => if saw ∧ done.length = 3 then some (done ++ [UInt8.ofNat cur]) else none
  | c :: cs, done, cur, saw =>
    if 48 ≤ c.toNat ∧ c.toNat ≤ 57 then
      let new := cur * 10 + (c.toNat - 48)
      if saw ∧ cur = 0 then none
      else if new > 255 then none
      else if ¬ saw ∧ done.length ≥ 4 then none
      else pton4Loop cs done new true
    else if c = 46 ∧ saw then
      if done.length = 3 then none else pton4Loop cs (done ++ [UInt8.ofNat cur]) 0 false
    else none

/-- `inet_pton(AF_INET, …)`: the four octets, or `none` for a return value of 0. -/
def inetPton4 (s : List UInt8) : Option (List UInt8) := pton4Loop s [] 0 false

/-- glibc `hex_digit_value`. -/
def hexDigitValue (c : UInt8) : Option Nat :=
  if 48 ≤ c.toNat ∧ c.toNat ≤ 57 then some (c.toNat - 48)
  else if 97 ≤ c.toNat ∧ c.toNat ≤ 102 then some (c.toNat - 87)
  else if 65 ≤ c.toNat ∧ c.toNat ≤ 70 then some (c.toNat - 55)
  else none

/-- The end of glibc `inet_pton6`: flush a pending group, expand `::` at offset `cp`. -/
def pton6Finish (tp : List UInt8) (cp : Option Nat) (xd val : Nat) : Option (List UInt8) :=
  if xd > 0 ∧ tp.length + 2 > 16 then none
  else
    let tp := if xd > 0 then tp ++ [UInt8.ofNat (val / 256), UInt8.ofNat (val % 256)] else tp
    match cp with
    | none => if tp.length = 16 then some tp else none
    | some n => if tp.length = 16 then none else some (tp.take n ++ List.replicate (16 - tp.length) 0 ++ tp.drop n)

/-- The loop of glibc `inet_pton6`: rest of the text, bytes stored so far, `colonp`, the text at `curtok`,
`xdigits_seen`, `val`. -/
def pton6Loop : List UInt8 → List UInt8 → Option Nat → List UInt8 → Nat → Nat → Option (List UInt8)
  | [], tp, cp, _, xd, val => pton6Finish tp cp xd val
  | c :: cs, tp, cp, tok, xd, val =>
    match hexDigitValue c with
    | some d =>
      if xd = 4 then none
      else if val * 16 + d > 0xffff then none
      else pton6Loop cs tp cp tok (xd + 1) (val * 16 + d)
    | none =>
      if c = 58 then
        if xd = 0 then
          match cp with
          | some _ => none
          | none => pton6Loop cs tp (some tp.length) cs 0 val
        else if cs = [] then none
        else if tp.length + 2 > 16 then none
        else pton6Loop cs (tp ++ [UInt8.ofNat (val / 256), UInt8.ofNat (val % 256)]) cp cs 0 0
      else if c = 46 ∧ tp.length + 4 ≤ 16 then
        match inetPton4 tok with
        | some q => pton6Finish (tp ++ q) cp 0 val
        | none => none
      else none

/-- `inet_pton(AF_INET6, …)`: the sixteen bytes, or `none` for a return value of 0. -/
def inetPton6 (s : List UInt8) : Option (List UInt8) :=
  match s with
  | [] => none
  | c :: cs =>
    if c = 58 then
      match cs with
      | 58 :: _ => pton6Loop cs [] none cs 0 0
      | _ => none
    else pton6Loop s [] none s 0 0

/-- `isspace` in the C locale. -/
def isSpace (c : UInt8) : Bool := c = 32 ∨ (9 ≤ c.toNat ∧ c.toNat ≤ 13)

/-- Decimal digits at the start of a string: the value (starting from `acc`) and the rest; `none` if there is none. -/
def scanDigits : Nat → Bool → List UInt8 → Option (Nat × List UInt8)
  | acc, seen, [] => if seen then some (acc, []) else none
  | acc, seen, c :: cs =>
    if 48 ≤ c.toNat ∧ c.toNat ≤ 57 then scanDigits (acc * 10 + (c.toNat - 48)) true cs
    else if seen then some (acc, c :: cs) else none

/-- The subject sequence of `strtol` and friends in base 10: optional white space, optional sign, digits.
Result: sign, magnitude, rest of the string; `none` if there is no conversion. -/
def scanInt (s : List UInt8) : Option (Bool × Nat × List UInt8) :=
  match s.dropWhile isSpace with
  | [] => none
  | c :: cs =>
    if c = 45 then (scanDigits 0 false cs).map fun r => (true, r.1, r.2)
    else if c = 43 then (scanDigits 0 false cs).map fun r => (false, r.1, r.2)
    else (scanDigits 0 false (c :: cs)).map fun r => (false, r.1, r.2)

/-- `strtol(s, &end, 10)` with 64-bit `long`: the value (clamped) and the text at `end`. -/
def strtol (s : List UInt8) : Int × List UInt8 :=
  match scanInt s with
  | none => (0, s)
  | some (neg, m, rest) => (if neg then max (-(m : Int)) (-2 ^ 63) else min (m : Int) (2 ^ 63 - 1), rest)

/-- `strtoul(s, &end, 10)` with 64-bit `unsigned long`: overflow gives `ULONG_MAX`, a minus sign negates. -/
def strtoul (s : List UInt8) : Nat × List UInt8 :=
  match scanInt s with
  | none => (0, s)
  | some (neg, m, rest) =>
    (if m ≥ 2 ^ 64 then 2 ^ 64 - 1 else if neg then (2 ^ 64 - m) % 2 ^ 64 else m, rest)

/-- The text of an unsigned number in `printf` (`%u`, `%hu`, `%d` of a non-negative number). -/
def fmtU (n : Nat) : List UInt8 := (Nat.toDigits 10 n).map fun c => UInt8.ofNat c.toNat

/-- What `sscanf` with one conversion does: the input ends before anything is converted (return value `EOF`, which is not
zero, and the destination is left alone), a matching failure (return value 0), or a value (return value 1). -/
inductive Scan (α : Type) where
  | eof | nomatch | val (v : α)
  deriving DecidableEq, Repr

/-- `sscanf(s, "%hu"/"%hhu"/"%lu", …)` for an unsigned destination of `bits` bits: the value of `strtoul`, truncated. -/
def scanfU (bits : Nat) (s : List UInt8) : Scan Nat :=
  if s.dropWhile isSpace = [] then .eof
  else
    match scanInt s with
    | none => .nomatch
    | some (neg, m, _) => .val ((if m ≥ 2 ^ 64 then 2 ^ 64 - 1 else if neg then (2 ^ 64 - m) % 2 ^ 64 else m) % 2 ^ bits)

/-- `sscanf(s, "%02hhx", …)`: white space is skipped, then at most two characters are taken: a sign and a digit, or one or
two hexadecimal digits.  (`0x` is taken as zero, which the second digit not matching also gives.) -/
def scanfHex2 (s : List UInt8) : Scan UInt8 :=
  match s.dropWhile isSpace with
  | [] => .eof
  | c :: cs =>
    if c = 45 ∨ c = 43 then
      match cs.head?.bind hexDigitValue with
      | none => .nomatch
      | some v => .val (UInt8.ofNat (if c = 45 then 256 - v else v))
    else
      match hexDigitValue c with
      | none => .nomatch
      | some v =>
        match cs.head?.bind hexDigitValue with
        | none => .val (UInt8.ofNat v)
        | some w => .val (UInt8.ofNat (16 * v + w))

/-- `isxdigit`. -/
def isXdigit (c : UInt8) : Bool := (hexDigitValue c).isSome

end Wdns
