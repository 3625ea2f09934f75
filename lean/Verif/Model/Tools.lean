import Verif.Model.Heap
import Verif.Model.Downcase
import Verif.Model.ToText
import Verif.Model.Format

/-!
# Model: the programs in examples/ and libmy/hex_decode.h

`wdns-hex-driver.c` with the four pairs of load and test functions, `wdns-dump-file.c`, and the packet handler of `wdns-dump-pcap.c`.
A program is modelled by what it writes and by its exit code; messages to stderr are left out, except for the output of `wdns-test-serialize-rrset`, which
goes there.
-/

namespace Wdns
open Outcome

/-- `toupper` in the "C" locale (glibc defines it for every `char`). -/
def cToupper (c : UInt8) : UInt8 := if 97 ≤ c.toNat ∧ c.toNat ≤ 122 then UInt8.ofNat (c.toNat - 32) else c

/-- `hex_to_int` — libmy/hex_decode.h:27-55 and examples/wdns-hex-driver.c:9-40. -/
def hdVal (c : UInt8) : Option Nat :=
  let hex := cToupper c
  if 48 ≤ hex.toNat ∧ hex.toNat ≤ 57 then some (hex.toNat - 48)
  else if 65 ≤ hex.toNat ∧ hex.toNat ≤ 70 then some (hex.toNat - 55)
  else none

/-- The loop of `hex_decode` — libmy/hex_decode.h:67-81 and examples/wdns-hex-driver.c:57-71; `out` is what has been written to the block of `cap`
octets.  `none`: `goto err`. -/
def hdLoop (text : List UInt8) (cap : Nat) : Nat → Nat → Nat → List UInt8 → Outcome (Option (List UInt8))
  | 0, _, _, _ => hang
  | fuel + 1, hex, hexlen, out =>
    if hexlen ≠ 0 then do
      let c ← rdS text hex
      match hdVal c with
      | none => ok none
      | some v0 =>
        let c ← rdS text (hex + 1)
        match hdVal c with
        | none => ok none
        | some v1 =>
          let out ← wr cap out (UInt8.ofNat ((v0 <<< 4) ||| v1))
          hdLoop text cap fuel (hex + 2) ((hexlen + 2 ^ 64 - 2) % 2 ^ 64) out
    else ok (some out)

/-- `hex_decode` — libmy/hex_decode.h:57-86 and examples/wdns-hex-driver.c:42-77 (there `malloc` may fail, which is not modelled): the octets and their
block. -/
def hdDecode (text : List UInt8) (h : Heap) : Outcome (Option (List UInt8 × Nat) × Heap) :=
  let hexlen := text.length
  if hexlen = 0 ∨ hexlen % 2 ≠ 0 then ok (none, h)
  else do
    let (b, h) := h.malloc
    let r ← hdLoop text (hexlen / 2) (hexlen + 1) 0 hexlen []
    match r with
    | some out => ok (some (out, b), h)
    | none => do
      let h ← h.free (some b)
      ok (none, h)

/-- `main` — examples/wdns-hex-driver.c:79-107, for any `loadfunc` and `testfunc`; `freefunc` and the memory that these functions use are not
modelled here.  The arguments do not include the name of the program.  Exit code and output. -/
def hexDriver {σ : Type} (loadfunc : List UInt8 → Outcome (Option σ)) (testfunc : σ → Outcome (List UInt8)) (args : List (List UInt8)) (h : Heap) :
    Outcome ((Nat × List UInt8) × Heap) :=
  match args with
  | [arg] => do
    let (r, h) ← hdDecode arg h
    match r with
    | none => ok ((1, []), h)
    | some (rawdata, b) =>
      let l ← loadfunc rawdata
      match l with
      | some s =>
        let out ← testfunc s
        let h ← h.free (some b)
        ok ((0, out), h)
      | none =>
        let h ← h.free (some b)
        ok ((1, []), h)
  | _ => ok ((1, []), h)

/-- A call of a function of the library and the test of its result, as in `loadfunc`: `some` on `wdns_res_success`. -/
def loaded {α : Type} : Outcome α → Outcome (Option α)
  | ok a => ok (some a)
  | err _ => ok none
  | ub => ub
  | hang => hang
  | abort => abort

/-- `loadfunc` — examples/wdns-test-print-message.c:11-19, examples/wdns-test-serialize-rrset.c:11-19. -/
def loadMessage (data : List UInt8) : Outcome (Option Message) := loaded (parseMessage data data.length)

/-- `loadfunc` — examples/wdns-test-deserialize-rrset.c:11-19, examples/wdns-test-downcase-rrset.c:11-19. -/
def loadRrset (le : Bool) (data : List UInt8) : Outcome (Option RRset) := loaded (deserializeRrset le data data.length)

/-- `print_data` — examples/wdns-test-serialize-rrset.c:28-33. -/
def printData (d : List UInt8) : List UInt8 := d.flatMap (byteToHex · false) ++ [10]

/-- The inner loop of `testfunc` — examples/wdns-test-serialize-rrset.c:45-51. -/
def serializeAll (le : Bool) : List RRset → List UInt8 → Outcome (List UInt8)
  | [], out => ok out
  | s :: ss, out => do
    let buf ← serializeRrset le (serializeSize s) s
    serializeAll le ss (out ++ printData buf)

/-- The outer loop — examples/wdns-test-serialize-rrset.c:43-52. -/
def serializeSections (le : Bool) (m : Message) : List Nat → List UInt8 → Outcome (List UInt8)
  | [], out => ok out
  | sec :: secs, out => do
    let a ← match m.sections[sec]? with | some a => ok a | none => ub
    let out ← serializeAll le a.rrsets out
    serializeSections le m secs out

/-- `testfunc` — examples/wdns-test-serialize-rrset.c:35-54. -/
def testSerialize (le : Bool) (m : Message) : Outcome (List UInt8) := serializeSections le m [1, 2, 3] []

/-- `testfunc` — examples/wdns-test-print-message.c:27-32. -/
def testPrintMessage (m : Message) : Outcome (List UInt8) := messageToStr m

/-- `testfunc` — examples/wdns-test-deserialize-rrset.c:27-32. -/
def testPrintRrset (s : RRset) : Outcome (List UInt8) := rrsetToStr s 1

/-- `testfunc` — examples/wdns-test-downcase-rrset.c:27-36. -/
def testDowncase (s : RRset) : Outcome (List UInt8) := do
  let (r, s) ← downcaseRrset s
  if r ≠ .success then ok [] else rrsetToStr s 1

/-- `main` — examples/wdns-dump-file.c:31-61, with `process_data` (14-29), for a file that can be opened and read without error: exit code and output.
`fread` asks for 4096 octets; the end of the file is noticed if and only if it has fewer. -/
def dumpFile (file : List UInt8) : Outcome (Nat × List UInt8) :=
  let data := file.take 4096 ++ List.replicate (4096 - file.length) 0
  let len := (file.take 4096).length
  if ¬ file.length < 4096 then ok (1, [])
  else do
    let l ← loaded (parseMessage data len)
    match l with
    | some m =>
      let s ← messageToStr m
      ok (0, s ++ [10])
    | none => ok (1, [])

/-- Subtraction of `uint32_t`, as in `advance` — examples/wdns-dump-pcap.c:18. -/
def sub32 (a b : Nat) : Nat := (2 ^ 32 + a - b) % 2 ^ 32

/-- `packet_handler` — examples/wdns-dump-pcap.c:31-88, up to the call of `wdns_parse_message`: `none` if it returns before, otherwise where the DNS
message is taken to begin and its length.  `pkt` are the captured octets (`caplen` many); lengths are `uint32_t`. -/
def pcapWindow (pkt : List UInt8) : Outcome (Option (Nat × Nat)) := do
  let len := pkt.length
  if len < 14 then ok none
  else do
    let p := 12
    let len := len - 12
    let a ← rd pkt p
    let b ← rd pkt (p + 1)
    let p := p + 2
    let len := len - 2
    if be16 a b ≠ 0x0800 then ok none
    else do
      let v ← rd pkt p
      let ihl := v.toNat &&& 0x0f
      if len < ihl * 4 then ok none
      else do
        let a ← rd pkt (p + 2)
        let b ← rd pkt (p + 3)
        let ipLen := be16 a b
        let len := if ipLen < len then ipLen else len
        let p := p + ihl * 4
        let len := sub32 len (ihl * 4)
        if len < 8 then ok none
        else do
          let p := p + 8
          let len := len - 8
          if len < 12 then ok none
          else ok (some (p, len))

/-- `packet_handler` — examples/wdns-dump-pcap.c:31-101: what is printed for the packet, and whether it is dumped to the output file. -/
def pcapHandler (pkt : List UInt8) : Outcome (List UInt8 × Bool) := do
  let w ← pcapWindow pkt
  match w with
  | none => ok ([], false)
  | some (p, len) =>
    let l ← loaded (parseMessage (pkt.drop p) len)
    match l with
    | some m =>
      let s ← messageToStr m
      ok (s, false)
    | none => ok ([], true)

end Wdns
