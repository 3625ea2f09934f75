import Verif.Model.Tools
import Verif.Model.Tables

/-!
# The main program of `wdns-dump-pcap`, and the version of the library

libpcap is a parameter: which files can be read and with which packets, which can be written, which filters can be compiled and set and
which packets they let through.
-/

namespace Wdns
open Outcome

/-- libpcap: `pcap_open_offline` (the packets of the file, or the error text), `pcap_dump_open`, `pcap_compile` together with
`pcap_setfilter` (what the filter lets through), and what `pcap_perror` writes. -/
structure Pcap where
  input : List UInt8 → Except (List UInt8) (List (List UInt8))
  output : List UInt8 → Option (List UInt8)
  filter : List UInt8 → Except (List UInt8) (List UInt8 → Bool)

/-- `pcap_loop` with `packet_handler` — examples/wdns-dump-pcap.c:143: what is printed, and the packets that are dumped, one by one. -/
def pcapLoop : List (List UInt8) → Outcome (List UInt8 × List (List UInt8))
  | [] => ok ([], [])
  | p :: ps => do
    let r ← pcapHandler p
    let q ← pcapLoop ps
    ok (r.1 ++ q.1, (if r.2 then [p] else []) ++ q.2)

/-- What the program leaves: the exit status, what it wrote to its two streams, and the packets in the output file, if it was opened. -/
structure DumpResult where
  status : Nat
  out : List UInt8
  err : List UInt8
  dumped : Option (List (List UInt8))
deriving DecidableEq

/-- `main` — examples/wdns-dump-pcap.c:103-150, for at least one argument (`argv[0]`); `count` and `count_dump` are `uint64_t`. -/
def dumpPcap (pc : Pcap) (argv : List (List UInt8)) : Outcome DumpResult :=
  match argv with
  | [_, inFile, outFile, bpf] =>
    match pc.input inFile with
    | .error e => ok ⟨1, [], ascii "pcap_open_offline() failed: " ++ e ++ [10], none⟩
    | .ok pkts =>
      match pc.output outFile with
      | some e => ok ⟨1, [], e, none⟩
      | none =>
        match pc.filter bpf with
        | .error e => ok ⟨1, [], e, some []⟩
        | .ok f => do
          let r ← pcapLoop (pkts.filter f)
          ok ⟨0, r.1, ascii "count=" ++ fmtU ((pkts.filter f).length % 2 ^ 64) ++ [10] ++ ascii "count_dump=" ++ fmtU (r.2.length % 2 ^ 64) ++ [10],
            some r.2⟩
  | argv0 :: _ => ok ⟨1, [], ascii "Usage: " ++ argv0 ++ ascii " <INFILE> <OUTFILE> <BPF>\n", none⟩
  | [] => ub

/-- `wdns_major_version`, `wdns_minor_version`, `wdns_patchlevel_version` — configure.ac:3-5. -/
structure Version where
  major : Nat
  minor : Nat
  patch : Nat
deriving DecidableEq

/-- `wdns_get_version` — wdns/version.c:19-23, `WDNS_LIBRARY_VERSION` of wdns/wdns.h.in:161 and `wdns_version` of configure.ac:6-7. -/
def getVersion (v : Version) : List UInt8 := fmtU v.major ++ [46] ++ fmtU v.minor ++ [46] ++ fmtU v.patch

/-- `wdns_get_version_number` — wdns/version.c:25-29, `WDNS_LIBRARY_VERSION_NUMBER` of wdns/wdns.h.in:162, as `uint32_t`. -/
def getVersionNumber (v : Version) : Nat := (v.major * 1000000 + v.minor * 1000 + v.patch) % 2 ^ 32

/-- What `WDNS_LIBRARY_VERSION_NUMBER / k` is, where the macro is put in as it is, without parentheses — wdns/wdns.h.in:162. -/
def macroDiv (v : Version) (k : Nat) : Nat := v.major * 1000000 + v.minor * 1000 + v.patch / k

/-- The version of this commit — configure.ac:3-5. -/
def thisVersion : Version := ⟨0, 12, 0⟩

end Wdns
