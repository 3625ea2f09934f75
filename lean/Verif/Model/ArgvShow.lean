import Verif.Model.Argv

/-!
# Model: the values of a command line as text — libmy/argv.c

`argv_value_string` and what it calls.  The caller's memory from `buf` on is a list of octets: what is written beyond it is
`ub`.  `buf_size` is not negative.
-/

namespace Wdns
open Outcome

/-- Writing `bs` at offset `i` of an object. -/
def poke (mem : List UInt8) (i : Nat) (bs : List UInt8) : Outcome (List UInt8) :=
  if i + bs.length ≤ mem.length then ok (mem.take i ++ bs ++ mem.drop (i + bs.length)) else ub

/-- `snprintf(mem + i, n, …)` (C library) that makes `text`. -/
def snprintfAt (mem : List UInt8) (i n : Nat) (text : List UInt8) : Outcome (List UInt8) :=
  if n = 0 then ok mem else poke mem i (text.take (n - 1) ++ [0])

/-- `strncpy(mem + i, text, n)` (C library): filled up with NUL, not terminated if there is no room. -/
def strncpyAt (mem : List UInt8) (i n : Nat) (text : List UInt8) : Outcome (List UInt8) :=
  poke mem i (text.take n ++ List.replicate (n - text.length) 0)

/-- `strlen(mem)` (C library). -/
def strlenAt (mem : List UInt8) : Outcome Nat :=
  let n := (mem.takeWhile (· ≠ 0)).length
  if n < mem.length then ok n else ub

/-- `%d`, `%ld` (C library). -/
def fmtI (n : Int) : List UInt8 := if n < 0 then 45 :: fmtU n.natAbs else fmtU n.natAbs

/-- The digits of `%o` (8) and `%x` (16) (C library). -/
def fmtBase (b n : Nat) : List UInt8 := (Nat.toDigits b n).map fun c => UInt8.ofNat c.toNat

/-- `SPECIAL_CHARS` — libmy/argv_loc.h:74: pairs of the letter and the character it stands for. -/
def specialChars : List (UInt8 × UInt8) :=
  [(101, 27), (94, 94), (34, 34), (39, 39), (92, 92), (110, 10), (114, 13), (116, 9), (98, 8), (102, 12), (97, 7)]

/-- `expand_buf` — libmy/argv.c:446-507; `src` is what is left of the characters (the first `buf_size`, or those in front of
the NUL), `o` is `out_p - out`.  (`isprint` in the C locale.) -/
def expandBuf (size : Nat) : List UInt8 → List UInt8 → Nat → Outcome (List UInt8 × Nat)
  | [], mem, o => ok (mem, o)
  | c :: cs, mem, o =>
    match specialChars.find? (fun p => p.2 = c) with
    | some p =>
      if o + 2 ≥ size then ok (mem, o)
      else snprintfAt mem o 2 [92, p.1] >>= fun mem => expandBuf size cs mem (o + 2)
    | none =>
      if 32 ≤ c.toNat ∧ c.toNat < 127 then
        if o + 1 ≥ size then ok (mem, o)
        else poke mem o [c] >>= fun mem => expandBuf size cs mem (o + 1)
      else
        if o + 4 ≥ size then ok (mem, o)
        else snprintfAt mem o 4 (92 :: [UInt8.ofNat (48 + c.toNat / 64), UInt8.ofNat (48 + c.toNat / 8 % 8), UInt8.ofNat (48 + c.toNat % 8)])
          >>= fun mem => expandBuf size cs mem (o + 4)

/-- `strncpy(buf, text, buf_size); buf[buf_size - 1] = '\0'; len = strlen(buf);` — libmy/argv.c:1501-1508 and alike. -/
def copyText (mem : List UInt8) (size : Nat) (text : List UInt8) : Outcome (List UInt8 × Nat) :=
  strncpyAt mem 0 size text >>= fun mem =>
  if size = 0 then ub else poke mem (size - 1) [0] >>= fun mem => strlenAt mem >>= fun n => ok (mem, n)

/-- `LOC_SNPRINTF(SNP_ARG(buf, buf_size), …); len = strlen(buf);` — libmy/argv.c:1525-1526 and alike. -/
def printText (mem : List UInt8) (size : Nat) (text : List UInt8) : Outcome (List UInt8 × Nat) :=
  snprintfAt mem 0 size text >>= fun mem => strlenAt mem >>= fun n => ok (mem, n)

/-- `strcpy(buf, "0"); len = strlen(buf);` — libmy/argv.c:1626-1633, 1647-1648, 1675-1676. -/
def zeroText (mem : List UInt8) : Outcome (List UInt8 × Nat) :=
  poke mem 0 [48, 0] >>= fun mem => strlenAt mem >>= fun n => ok (mem, n)

/-- The loop over the bits — libmy/argv.c:1588-1600: the characters it writes for the bits below `k`; `first` is `first_b`.
(`1 << 31` is as gcc has it.  `binary` has room for 131 characters, of which at most 49 are used.) -/
def bitLoop (v : Nat) : Nat → Bool → List UInt8
  | 0, _ => []
  | k + 1, first =>
    if v / 2 ^ k % 2 = 0 then (if first then 48 :: bitLoop v k first else bitLoop v k first)
    else 49 :: bitLoop v k true

/-- The text of a size — libmy/argv.c:1643-1670, 1672-1699: `v` is the value, `f` is `%ld` of a value of the type. -/
def sizeText (mem : List UInt8) (size : Nat) (v : Int) (f : Int → List UInt8) : Outcome (List UInt8 × Nat) :=
  if v = 0 then zeroText mem
  else if v.tmod (1024 * 1024 * 1024) = 0 then
    printText mem size (f (v.tdiv (1024 * 1024 * 1024)) ++ ascii "g (" ++ f v ++ ascii ")")
  else if v.tmod (1024 * 1024) = 0 then
    printText mem size (f (v.tdiv (1024 * 1024)) ++ ascii "m (" ++ f v ++ ascii ")")
  else if v.tmod 1024 = 0 then printText mem size (f (v.tdiv 1024) ++ ascii "k (" ++ f v ++ ascii ")")
  else printText mem size (f v)

/-- `value_to_string` — libmy/argv.c:1483-1713: the memory and the length.  `real` is what `%f` makes of a `float` (`false`)
or a `double` (`true`).  The variable holds a value of the type; of another type it is not defined what is read. -/
def valueToString (real : Bool → Nat → List UInt8) (ty : Nat) (v : AVal) (mem : List UInt8) (size : Nat) :
    Outcome (List UInt8 × Nat) :=
  match ty, v with
  | 1, .num n => copyText mem size (if n ≠ 0 then ascii "true (! 0)" else ascii "false (0)")
  | 2, .num n => copyText mem size (if n ≠ 0 then ascii "true (! 0)" else ascii "false (0)")
  | 3, .num n => copyText mem size (if n ≠ 0 then ascii "true (! 0)" else ascii "false (0)")
  | 4, .chr c => expandBuf size [c] mem 0
  | 5, .str none => copyText mem size (ascii "(null)")
  | 5, .str (some s) => expandBuf size s mem 0
  | 6, .num n => printText mem size (fmtI n)
  | 7, .num n => printText mem size (fmtI n)
  | 8, .num n => printText mem size (fmtI n)
  | 9, .num n => printText mem size (fmtU n.toNat)
  | 10, .num n => printText mem size (fmtI n)
  | 11, .num n => printText mem size (fmtU n.toNat)
  | 12, .real r => printText mem size (real false r)
  | 13, .real r => printText mem size (real true r)
  | 14, .num n =>
    copyText mem size (if n = 0 then ascii "0"
      else ascii "0b" ++ bitLoop (n % 2 ^ 32).toNat 32 false ++ ascii " (" ++ fmtI n ++ ascii ")")
  | 15, .num n =>
    if n = 0 then copyText mem size (ascii "0")
    else printText mem size (ascii "0" ++ fmtBase 8 (n % 2 ^ 32).toNat ++ ascii " (" ++ fmtI n ++ ascii ")")
  | 16, .num n =>
    if n = 0 then zeroText mem
    else printText mem size (ascii "0x" ++ fmtBase 16 (n % 2 ^ 32).toNat ++ ascii " (" ++ fmtI n ++ ascii ")")
  | 17, .num n => printText mem size (fmtI n)
  | 18, .num n => sizeText mem size n fmtI
  | 19, .num n => sizeText mem size n (fun m => fmtI (toSigned 64 m))
  | 20, .num n => copyText mem size (if n ≠ 0 then ascii "true (! 0)" else ascii "false (0)")
  | 21, .num n => copyText mem size (if n ≠ 0 then ascii "true (! 0)" else ascii "false (0)")
  | 22, .num n => copyText mem size (if n ≠ 0 then ascii "true (! 0)" else ascii "false (0)")
  | _, _ => if ty = 0 ∨ ty > 22 then copyText mem size (ascii "(unknown)") else ub

/-- `argv_value_string` — libmy/argv.c:3599-3638.  (`details` has room for the text of any number of entries.) -/
def argvValueString (real : Bool → Nat → List UInt8) (e : AEntry) (mem : List UInt8) (size : Nat) : Outcome (List UInt8 × Nat) :=
  match e.array, e.var with
  | true, some (.many []) => copyText mem size (ascii "0 array entries")
  | true, some (.many [v]) => valueToString real e.ty v mem size
  | true, some (.many (v :: vs)) =>
    valueToString real e.ty v mem size >>= fun r =>
    strncpyAt r.1 r.2 (size - r.2) (ascii " (1st of " ++ fmtU (vs.length + 1) ++ ascii " entries)") >>= fun mem =>
    if size = 0 then ub else poke mem (size - 1) [0] >>= fun mem => strlenAt mem >>= fun n => ok (mem, n)
  | false, some (.one v) => valueToString real e.ty v mem size
  | _, _ => ub

end Wdns
