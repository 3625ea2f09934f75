# A Lean 4 model of farsightsec/wdns

## 1. What is modelled and how

The library is a set of byte-level parsers, printers and small data-structure
operations.  The model is a set of total Lean functions over `List UInt8`,
`Nat`/`Int` and plain structures, written function by function next to the C
code (each definition cites file and lines).

* **Outcome** (`Verif/Basic.lean`).  A C function that returns `wdns_res`
  becomes a function into
  `Outcome α = ok a | err (r : Res) | ub | hang | abort`.
  `ub` is a distinct outcome: it is produced by a read or write outside the
  object (one-past-the-end reads included), by a null dereference, or by a use
  of memory the code was not given.  `hang` is produced by a loop whose iteration
  budget is exhausted.  Theorems that promise a result (`ok`/`err`) therefore also promise
  that the budget was enough.  For the loops whose bound is not syntactically obvious (name decompression, rdata
  parsing) separate theorems show that more budget never changes the outcome or that `hang` is not reached;
  the one loop of the code that really does not end (SvcParams, `C34_terminates_violated`) gives
  `hang` for every budget.  `abort` is `assert`/`abort()`.
* **Memory**.  A buffer argument is a `List UInt8` (`mem`) together with offsets
  (`p`, `eop`, `src`); reading `mem[i]?` with `i` outside the list is `ub`.  To talk about
  bytes that lie beyond the bytes a function was given, `eop` may be smaller than
  `mem.length`.  A caller-allocated output is modelled by the list of bytes written so far
  and a capacity; writing beyond the capacity is `ub`.
* **Integers** are `Nat`/`Int`, with an explicit `% 2^k` at each place where
  the C code narrows or can wrap (`uint16_t kv_len`, `uint32_t olen`,
  `uint8_t oclen`, `size_t bytes_remaining`, `rdata->len`, ...).
* **C strings** are `List UInt8` without NUL; index `length` reads NUL, beyond is `ub`.
* **qsort** is modelled by a stable sort, and separately by a relation "any
  permutation sorted by the comparator", to show the result does not
  depend on the algorithm.  **bsearch** is modelled as a binary search.
* **libc** pieces that are called (`strtol`, `strtoul`, `sscanf("%hu"...)`,
  `sscanf("%02hhx")`, `inet_pton`, `strtok_r`, `strpbrk`, `isspace`, `isdigit`, `fgets`) are
  modelled by small functions following the C standard/POSIX/glibc; they are part of the
  trusted base.

## 2. Layout

* `Verif/Spec/*`   — independent specifications (domain names as label lists,
  wire form, RFC 1035 decompression relation, ...).  Short, meant to be read.
* `Verif/Model/*`  — the model of the code.
* `Verif/Lemmas/*` — helper lemmas.
* `Verif/Props/*`  — the property theorems (`C01_...`), each with an `example`
  showing that its hypotheses are met by a concrete non-trivial case.
* Two modules pin what both sides share, so that a wrong shared definition cannot
  hide: `Props/Registry.lean` checks every name/number table against the blocks of
  `Spec/Registry.lean` (written from the IANA registries), and `Props/Octets.lean`
  pins ASCII folding, big-endian reading and the character codes of `Basic.lean`.

## 3. Properties: plan

| id | modelled | proof method |
|----|----------|--------------|
| C01-C06 | `unpack_name`, `copy_uname` as fuelled loops over `mem,p,eop,src` with a 255-byte dst | loop invariant (bytes written = labels so far), relation `Denotes` for RFC 1035, lexicographic measure (space left in dst, offset) for termination; the codes of rejected names by following `Reaches` to the first fault |
| C07-C09 | `skip_name`, `len_uname` (32-bit wrap modelled) | induction over the loop / over the denoted name |
| C10-C14 | `count_labels`, `left_chop`, `is_subdomain`, `reverse_name`, `downcase_name` | refinement to operations on label lists |
| C15-C20 | `domain_to_str`, `_wdns_str_to_name` (position, remaining length, back-patched length octets) | simulation of the scanner on printed labels |
| C21-C25 | `compare_rr_rrset`, `sort_rrset`, `serialize/deserialize_rrset` (endianness parameter) | refinement, uniqueness of sorted permutations, round trip |
| C26-C28 | `insert_rr_rrset_array` | invariant over all insertion sequences |
| C29-C35 | `parse_message`, `parse_message_rr`, `parse_edns`, `parse_rdata` | invariants over the section/record loops |
| C36-C37 | ownership model: allocation/free events of the same functions | invariant: live blocks = reachable blocks |
| C38-C41 | `parse_rdata` interpreter of `record_descr_array` | induction over the descriptor |
| C42-C46 | `_wdns_rdata_to_ubuf`, `_wdns_str_to_rdata_ubuf` interpreters | per-field lemmas, induction over the descriptor |
| C47-C50 | generated tables, bsearch, strtol | complete table check by the kernel + decimal lemma |
| C51-C56 | `libmy` base64, base32, hex, decimal, inet4/6 | per-block bit lemmas, induction |
| C57 | `vector.h`, `ubuf.h` | refinement to lists over every operation sequence |
| C58-C60 | `downcase_rdata` | induction over the descriptor; `C60_any_octets` is exact for arbitrary octets (`Downs`, Spec/DowncaseAny) |
| C61-C64 | EDNS text, `message_to_str`, `rr(set)_to_ubuf`, `file_load_names` | direct |
| C65 | bitmap encoder | invariant over the sorted type list |
| C66 | tables | case analysis |
| C04, C34, C35, C40, C67 (exact forms) | the same parser models on arbitrary memory, nothing assumed about the packet (Spec/Wrapped.lean: SvcParam sizes modulo 65536, names cut off by the end of memory) | a complete description of the SvcParam walk (accepted, never ends, leaves the memory), lifted through fields, records and sections |
| C67-C68 | `parse_message` and `deserialize_rrset` as a whole, with ownership | both directions of the record list, also for packets with memory behind them (Spec/Behind.lean: at most one octet behind the packet is used); live blocks = reachable blocks |
| C69 | the scanner interpreter with reads outside the text and uninitialised values as `ub` | per-field safety, induction over the descriptor; exactly when it is undefined: an iff per field (`Spec/ScanFaults.lean`), then by induction over the fields |
| C70-C73 | grammars of names, character strings, addresses and all rdata fields, given as inductive relations apart from the model | soundness and completeness by induction on the text; the fault that decides a rejection (Spec/NameFaults.lean) by a case analysis of every text |
| C74 | `wdns_rdata_to_str` on arbitrary octets; the walk along a layout is an inductive relation apart from the model | trichotomy (shown / marked / hanging name) by induction on the layout |
| C75 | `base32_decode` as a step machine, any number of calls sharing the static table, any schedule (list of call numbers) | invariant: table entries are right below the filler's index and never become wrong |
| C76 | the text functions with explicit heap (live blocks) | simulation: same outcome as the models without heap, and equality of live blocks |
| C77 | from-text, parser and to-text models together | C73 (exact grammar) + C38 (verbatim parse) + the C44 round trip; inductive specification of the irregular texts; counterexamples for each |
| C78 | parser, serialize, deserialize, sort | validity of every parsed RRset, then C23/C24/C22 |
| C79 | parser | both packets against the record specification (Spec/Message), which determines the message |
| C80 | count_labels, is_subdomain, left_chop, reverse_name on arbitrary octets | `Along`, `DueAt` (Spec/OpFaults.lean); loop invariants without the well-formedness hypothesis; violations by evaluation |
| C81 | varint.c | induction on the number of base-128 digits; the short form is unique by length |
| C82 | my_queue_mb.c, two threads with FIFO store buffers, one step per octet | inductive invariant over all runs: memory = prefix of the store sequence, buffers = its next part |
| C83 | my_queue_mutex.c, any number of threads | inductive invariant relating the ring to the sequential queue of Spec/QueueHist |
| C84 | crc32c*.c with all tables, both byte orders | the register is linear over GF(2): n octets = 8n steps of the register on (register xor octets); tables checked entry by entry; polynomial division by induction on the bits |
| C85 | heap.c, items of any type | permutation and hole invariants of the two sift loops; refinement of a bag by induction over the calls |
| C86 | lookup3.c, all branches on alignment, byte order and VALGRIND | one lemma per loop and switch (generated), induction over blocks of twelve octets; specification on whole words |
| C87 | ip_arith.h on the numbers that the octets spell | bit lemmas for masks; least and greatest element of the block |
| C88 | my_fileset.c with the file system as input and the callbacks recorded | invariant over histories: entries sorted, distinct, and a permutation of the live pairs of the call record |
| C89 | hex_decode and main of wdns-hex-driver.c with heap blocks | induction over the text: loop = specification decoder; case analysis of main |
| C90 | packet_handler with 32-bit lengths | evaluation of the handler to a closed form, arithmetic |
| C91 | main and process_data over the parser and renderer models, with the 4096-octet array as memory | composition of C67, C35 and C62 in the memory of the array |
| C92 | the three programs over the parser, serializer, hexadecimal and renderer models | composition of C78, C23, C89, C59 and C64 |
| C93 | string_replace over octet lists with strstr | induction on the text against an inductive specification with a proof that it determines the result |
| C94 | read_bytes over a list of what the successive calls of read find | induction on that list |
| C95 | the integer arithmetic of both files, with signed overflow undefined; the floating-point adjustment is a parameter (undefined when no time has passed) | linear arithmetic and an invariant over runs of calls |
| C96 | my_threadnum_register as steps under a mutex | an invariant over all reachable states |
| C97 | print_string as a map from octets to characters | induction |
| C98 | all macros over a memory of links and list heads | refinement of sequences: one lemma for putting an element between two parts of a list, one for taking it out, one for joining, and induction over histories |
| C99 | the code RB_GENERATE expands to, over a memory of entries with parent pointers and colours | a zipper (context and subtree) related to memory; the two rebalancing loops by induction on the budget with the colour and black-height invariants of the context; histories by induction |
| C100 | the code SPLAY_PROTOTYPE and SPLAY_GENERATE expand to, over a memory of entries | the top-down loop as an invariant over the middle tree and the two hooked side trees, by induction on the budget; the calls from the resulting split; histories by induction |
| C101 | the existing models of these functions | a predicate on outcomes closed under sequencing, by induction on the loops; which input gets which code (`Spec/Faults.lean`): an iff per field, then by induction over the fields and the records |
| C102 | `spooldir_next` as a step machine, one system call at a time, with the directory entry buffer and the path buffer shared; the file system with file identities | an invariant over all reachable states; a step-by-step run for the undisturbed call |
| C103 | the reader, over a parser of libldns given by the sequence of items it finds; every block it owns; the buffer with the command | induction over the items; multiset of live blocks |
| C104 | each operation as one atomic step on a signed integer of 32 or 64 bits; `atomic_ptr_set` as two steps | induction over the run; arithmetic modulo 2^w |
| C105 | `getenv_int` over `strtoul` with base 0 (up to C17) | a grammar of numbers, equivalence with the reader |
| C106 | the word operations on 32-bit words; the buffer of C57 | bit by bit; induction over the pieces |
| C107 | the parser as for C34-C40; the size of a message object is the octets of names and rdatas it holds (the arrays of pointers and structs grow with the number of records) | a potential for the loop; 48 octets per octet for each record, of which none has more than two names in its rdata, twice; for texts, 88 characters paid for by each octet that a field takes |
| C108 | the whole of processing, over an array whose entries behind ARGV_LAST cannot be read, a queue with its real capacity, files as a partial map and a number of files that can be open | a counting invariant: options that can still come plus options waiting are at most the capacity; the nesting is at most the number of files that can be open |
| C109 | as for C108 | an invariant over everything that processing does to the array, for alternatives; the final checks for the others |
| C111 | the three loops, with int overflow undefined | induction over the text, with the fold of the digits |
| C112 | the two loops | induction over the arguments; uniqueness of the words |
| C110 | as for C108, and a small specification of items, words and what entries receive | induction over the line: what has been told is what the array holds, and no option waits for a value |
| C113 | as for C110, and a specification of what is allowed after what | induction over the line: the error flag is clear exactly if all said so far is allowed; then the three final checks, each shown to be exact |
| C114 | as for C108, and a small specification of the texts of each type | scanning lemmas for strtol on sign, digits and rest; induction over the texts given to one entry |
| C115 | the functions of C36, C68 and C76 once more, with an arbitrary set of refused requests | simulation: each function with refusals against the one without |
| C116 | the caller's memory as a list of octets, `snprintf`, `strncpy`, `strcpy` and `strlen` on it, the loops over characters and bits; `%f` as a parameter | explicit contents of the memory after each way of writing, induction over the characters and the bits, uniqueness of numerals; reading back through C114 |
| C117 | process_env as a loop over the octets, with the settings as a record; argv_process on top of the model of C108 | a table of the documented words; induction over the text |
| C118 | argv_long_was_used over the array, with the addresses of the names as a parameter | induction over the array |
| C119 | argv_cleanup over the array, with the provenance of every string (NULL, from malloc, other) | an invariant of the processing of C108: an option of type string that counts as given holds a copied string or waits in the queue for its value |
| C120 | the text of C62, cut at its separators | no part of a line contains the separator behind it, and every part is injective: names, types and classes by the round trips of C07, C20 and C21, rdata by C44, numbers by the uniqueness of decimal numerals; EDNS options by their labels, hexadecimal octets and the round trip of addresses |
| C121 | the text that is written, with the column counters of the code | the counters are shown to equal the widths of the text; induction over the array with an invariant on the column |
| C122 | display_variables with its buffer, and the special words of do_list | C116 for the values, the widths of C121, induction over the array |
| C123 | the processing once more with what it writes | a relation between the processing with and without messages, carried through by induction over the line and the nesting; the final checks by exact description |
| C124 | the functions on names of `Model/Name.lean` | each function is described by the list of labels (C10–C14); the laws are laws about lists |
| C125 | the two functions and the macro, for every triple of parts | arithmetic; uniqueness of decimal numerals |
| C126 | the processing a third time, with results that say whether the program was ended | a relation between the two modes, carried through words, lists and nested files by induction; the rest follows from C123 |
| C127 | wdns_domain_to_str on arbitrary octets | `AnyText` (Spec/AnyText.lean): existence, uniqueness; loop invariant with both outcomes |
| C128 | `parseMessage` on two memories, one of which begins with the other | the exact description of accepted packets (Spec/Wrapped.lean) is monotone in memory and length except for a name that borrows the octet behind the packet, and such a record is not accepted in the longer packet |
| C129 | the RRsets of two parsed messages | the grouping of C26/C67 is expressed in terms of what is observable of the records and is invariant under permutation; C78 for the octets |
| C130 | histories of calls on the heap model | an invariant of the transition system Reach: the heap's live blocks are a permutation of the blocks of the held objects; each case by the heap theorems of C36, C68, C76 |
| C131 | the RRsets of two parsed messages whose records correspond under Spec/CaseAlike | the grouping of C26/C67 respects the correspondence; C59 generalized to any memory behind the rdata; C22 for the octets |
| C132 | RRsets as objects with blocks: equality covers every octet | the block lengths of parsed RRsets are shown to equal their length fields; then the round trip of C23 is exact |

Where the unchanged code violates the property, the negation is proved with a
concrete witness, and the strongest true part is proved with the suffix `_partial`.

## 4. Trusted base

**Lean.**  The Lean 4.33.0 kernel.  No axiom is declared in this project, no proof is left open, and nothing rests on
compiled evaluation.  Every theorem named in `MANIFEST.json` depends on at most the three
standard axioms `propext`, `Classical.choice`, `Quot.sound` (checked with `#print axioms` on each of
them; about 80% use all three, 20% a subset).

**The correspondence between the C text and `Verif/Model/*`** was made by hand, by reading.  It is
supported by (a) the citations on each definition, (b) `Verif/Tests/Vectors.lean`: the
test vectors of `/repo/t/*.c` replayed on the model and checked by the kernel (tests, not proofs), and (c) the seeded
edits of `seeded/LOG.jsonl`.  The code itself was neither compiled nor run.

**Platform.**  LP64, two's complement, 8-bit bytes, signed `char` (x86-64 Linux), either byte order for
serialisation (a parameter), the "C" locale, glibc.  `ctype.h` functions on negative `char` answer false as in glibc.

**libc** is modelled, not verified: `strtol`, `strtoul`, `sscanf` (`%hhu %hu %u %02hhx`), `inet_pton`,
`strtok_r`, `strpbrk`, `strcasecmp`, `bsearch` (binary search as in glibc's `bits/stdlib-bsearch.h`), `qsort` (any permutation sorted
by the comparator), `snprintf` with `%u/%d/%s`, `isspace`, `isdigit`, `isxdigit`, `tolower`, `fgets`.

**Undefined behaviour** means in the model: access outside the object, null dereference, use of a released
block, use of an uninitialised local.  *Not* treated as undefined: forming (without using) a pointer outside an object, and reading
an uninitialised heap byte that is not used.  Not modelled: alignment, strict aliasing, data races as such (C75 models the one
shared table with sequentially consistent accesses), signals.

**Allocation** never fails except in `Model/Oom.lean` and `Model/OomText.lean` (C115), where any set of requests may be refused: `libmy/my_alloc.h` asserts on NULL, so the process aborts; plain `malloc`, `calloc`, `strdup` return NULL.  `malloc(0)` is
assumed to return non-NULL.

**Modelled code**

| C source | model |
|---|---|
| `wdns/unpack_name.c copy_uname.c skip_name.c len_uname.c count_labels.c left_chop.c is_subdomain.c reverse_name.c downcase_name.c domain_to_str.c str_to_name.c` | `Model/Name.lean` |
| `wdns/compare_rr_rrset.c sort_rrset.c serialize_rrset.c deserialize_rrset.c insert_rr_rrset_array.c` | `Model/RRset.lean` |
| `wdns/record_descr.c record_descr.h` (all 80 entries) | `Model/Descr.lean` |
| `wdns/parse_header.c parse_message.c parse_message_rr.c parse_edns.c parse_rdata.c` | `Model/Parse.lean` |
| the same, plus `clear.c`, with allocations and releases | `Model/Heap.lean` |
| `wdns/gen_*_to_str` tables, `opcode_to_str.c res_to_str.c svcparamkeys_to_str.c`, the lookups | `Model/Tables.lean` |
| `wdns/downcase_rdata.c downcase_rrset.c` | `Model/Downcase.lean` |
| `wdns/rdata_to_ubuf.c rdata_to_str.c edns_options.c rr_to_*.c rrset_to_*.c rrset_array_to_*.c message_to_str.c` | `Model/ToText.lean` |
| `wdns/str_to_rdata_ubuf.c`, `wdns_str_to_rdata` | `Model/FromText.lean` |
| `wdns/file_load_names.c` | `Model/File.lean` |
| `libmy/b32_decode.c` with several threads | `Model/Base32Threads.lean` |
| `wdns/str_to_name.c str_to_rdata_ubuf.c *_to_str.c message_to_str.c print_*.c file_load_names.c`, allocations and releases | `Model/TextHeap.lean` |
| `libmy/b64_*.c b32_*.c fast_inet_ntop.c my_format.c` | `Model/Format.lean` |
| `libmy/vector.h ubuf.h my_alloc.h` | `Model/Ubuf.lean` |
| `libmy/varint.c` | `Model/Varint.lean` |
| `libmy/my_queue_mb.c my_memory_barrier.h` | `Model/Queue.lean` |
| `libmy/my_queue_mutex.c` | `Model/QueueMutex.lean` |
| `libmy/heap.c` | `Model/PtrHeap.lean` |
| `libmy/crc32c.c crc32c-slicing.c crc32c-sse42.c` | `Model/Crc.lean`, `Model/CrcTables.lean` (generated by `tools/gen_crc.py`) |
| `libmy/lookup3.c` | `Model/Lookup3.lean` (written by tools/gen_lookup.py) |
| `libmy/ip_arith.h` | `Model/IpArith.lean` |
| `libmy/my_fileset.c` | `Model/Fileset.lean` |
| `libmy/hex_decode.h`, `examples/wdns-hex-driver.c` | `Model/Tools.lean` |
| `libmy/string_replace.h` | `Model/Misc.lean` |
| `libmy/read_bytes.h` | `Model/Misc.lean` |
| `libmy/my_time.h` (add, sub), `libmy/my_rate.c` (without floating point) | `Model/Misc.lean` |
| `libmy/threadnum.c` | `Model/Misc.lean` |
| `libmy/print_string.h` | `Model/Misc.lean` |
| `libmy/list.h` | `Model/List.lean` |
| `libmy/tree.h` 291-741 | `Model/RbTree.lean` |
| `libmy/tree.h` 58-289 | `Model/Splay.lean` |
| `libmy/spooldir.c` | `Model/Spooldir.lean` |
| `libmy/zonefile.c` | `Model/Zonefile.lean` |
| `libmy/atomic.h`, `libmy/atomic_64.h`, `libmy/atomic_ptr.h` | `Model/Atomic.lean` |
| `libmy/getenv_int.h` | `Model/Getenv.lean` |
| `libmy/my_byteorder.h`, `libmy/ubuf-pb.h` | `Model/Getenv.lean` |
| `libmy/argv.c`, `libmy/argv_loc.h`, `libmy/argv.h` | `Model/Argv.lean` |
| `libmy/my_alloc.h` with failing allocations | `Model/Oom.lean`, `Model/OomText.lean` |
| `libmy/argv.c`, `libmy/argv_loc.h` | `Model/ArgvShow.lean` |
| `libmy/argv.c`, `libmy/argv_loc.h` (settings) | `Model/ArgvGlobal.lean` |
| `libmy/argv.c` (argv_cleanup) | `Model/ArgvCleanup.lean` |
| `libmy/argv.c` (usage messages, display of variables) | `Model/ArgvUsage.lean` |
| `libmy/argv.c` (messages) | `Model/ArgvTell.lean` |
| `libmy/argv.c` (argv_interactive set; argv_startup) | `Model/ArgvExit.lean` |
| `wdns/version.c`, `wdns/wdns.h.in` (macros) | `Model/Dump.lean` |
| `examples/wdns-test-serialize-rrset.c`, `examples/wdns-test-deserialize-rrset.c` | `Model/Tools.lean` |
| `examples/wdns-dump-file.c` | `Model/Tools.lean` |
| `examples/wdns-dump-pcap.c` (packet_handler) | `Model/Tools.lean` |
| `examples/wdns-dump-pcap.c` (main, given what libpcap does) | `Model/Dump.lean` |

Simplifications, each repeated at the definition: the text and parse models use byte lists for ubufs (their refinement to the
block/size/hint representation is C57); block contents are not stored in the
ownership model; the ubuf used inside `parse_rdata` is two blocks there without its intermediate growth.

**Not modelled**: libpcap itself (a parameter of `Model/Dump.lean`), and failing allocations in `libmy/argv.c` (which is not compiled
into the library).

## 5. Disagreements between the code and the properties

Each is proved as a theorem about the unchanged model (`*_violated`, `*_violations`, `*_overread`).

1. `unpack_name`/`skip_name` can read the octet at `eop` (C02, C04, C07).
2. `len_uname` reports success with `olen+1` on an unterminated name (C09); the rdata printer relies on it.
3. `str_to_name` has no 63-octet check (C17), reads past a trailing backslash (C18) and keeps escaped capitals (C19).
4. `reverse_name` overruns a buffer one octet too small (C13).
5. `parse_edns` shifts the upper RCODE bits by 8 instead of 4 (C33).
6. The SvcParam length is kept in 16 bits: length 0xFFFC.. wraps (C34 loops, C40 schema, C42 text).
7. A CNAME at the end of the packet can make the parser read the next octet, and an `alpn` SvcParam of length 0xFFFC or more makes it read 65 kB behind the packet (C35).
8. `rdata->len` is 16 bits and truncates an expanded rdata, already in messages of at most 65535 octets (C39_message_violated).
9. `rdata_to_str`/`str_to_rdata` do not round-trip for RRSIG covering type 0, non-canonical bitmaps, A6 with prefix 0 or
   128, several SvcParam shapes, OPT (C44_violations).
10. `base64_decode_value('{')` reads past its table (C51).
11. `my_bytes_to_hex_str`, `my_uint64_to_str` write outside a zero-sized buffer (C53, C54).
12. Extending a ubuf by itself reads freed storage (C57); `ubuf_add_cstr` silently strips one trailing NUL.
13. `downcase_rdata` misreads A6 prefixes, stops at zero octets inside labels, overreads unterminated names (C59, C60).
14. `file_load_names` reads `line[-1]` for a line that begins with NUL, splits long lines, treats names beginning with `#` as
    comments (C63).
15. `rrset_to_ubuf` in the question section dereferences `rdatas[0]` of an empty set (C64).
16. Scanning rdata text: `\# ` leaves an uninitialised length; `%hu`/`%hhu` silently reduce too large numbers (C44/C45 notes).
    `ech="\\123"` decodes to `{` and reads past the base64 table; white space after the last hexadecimal pair, and a salt
    followed by white space such as `\\v`, use an uninitialised octet; the hexadecimal scanner takes `5g` for 05 and accepts signs;
    an A6 prefix length is taken modulo 256 and a `\\#` length modulo 65536; `key-18446744073709551615` is key 1; a one-character
    NSEC3 hash is taken for an empty one (C69, C50).  Missing trailing fields and trailing text are accepted; NULL, WKS, SIG and
    NXT do not use the RFC text form; in a class other than IN the text of an IN-only type is ignored (C73).
17. `parse_message` succeeds on truncated counts and accepts OPT in the question section (C67, C29).
18. Serialisation is in host byte order (C24/C25 are stated for the same order on both sides); `is_subdomain` is case-sensitive (C12).
19. `rdata_to_str` on rdata ending in labels without a root label reads past the end; for RRSIG the remaining length becomes -1
    and the next 65535 octets are printed (C74).
20. `base32_map` is filled without synchronisation and marked as filled first: a call in another thread meanwhile reads zeros (C75).
21. Text the library accepts as rdata may denote rdata it refuses to parse or whose own text it refuses to read: labels over 63 octets,
    `alpn` ending in a comma or with an id over 255 octets, `ech` empty or over 189 octets, A6 prefix 128 without a name (C77).
22. `wdns_count_labels` and `wdns_is_subdomain` read the octet just behind an unterminated name; `wdns_left_chop` can return an empty name on
    which it then reads out of bounds; `wdns_reverse_name` writes in front of its buffer if labels fill the name exactly (C80).
23. `varint_decode32` shifts an `int` out of its range (C81); the queue computes `head * sizeof_elem` in 32 bits, so that elements overlap
    if the storage exceeds 2^32 octets (C82).
24. `heap_get` on an empty heap reads outside the vector for every position (C85).
25. `my_hashlittle`, `my_hashlittle2` and `my_hashbig` read up to three octets beyond an aligned key unless VALGRIND is defined (C86).
26. `ip4_lower`/`ip4_upper` shift an `int` by 31 or 32 for prefix lengths 1 and 0, `ip6_lower`/`ip6_upper` shift by 64 for prefix lengths 0 and 64 (C87).
27. `my_fileset_reload`: a file listed twice is unloaded twice (double free in the caller); a change seen by `stat` while `fopen` fails is forgotten; an empty line loads the directory itself (C88).
28. `wdns-dump-pcap`: an IP total length below the header length underflows to a length of almost 2^32 (C90); captures of 14 octets are read beyond their end.
29. `SPLAY_REMOVE` returns its argument instead of the element it unlinked (libmy/tree.h:198); when the argument is only a key equal to a member, the caller loses the member (`C100_remove_violated`).
30. `spooldir_next` unlinks a file that was handed out earlier when a file of the same name arrives; if the following `rename` fails, nothing is handed out in exchange (C102).
31. `zonefile_init_fname` loops forever on a file without records (also on a missing `.gz` file), leaks its object if `fopen` fails, leaks an origin set in front of the SOA record and passes the file name to the shell unquoted; `zonefile_read` reports a second SOA record like the end of the file although later reads go on; `zonefile_get_serial` aborts after the first read (C103).
32. `atomic64_zero` returns an `int`: a 64-bit counter that is read and reset through it loses everything above 31 bits (C104).
33. `getenv_int` accepts an empty variable as 0, negative numbers modulo 2^64, too large numbers as 2^64-1, and overwrites the value when it returns false (C105).
34. `argv_process` (libmy/argv.c): using the last option before `ARGV_LAST` reads the entry behind `ARGV_LAST` (`check_or` looks at `which_p + 1` and steps by two); an option with a value repeated inside one argument (`-ooo`), and options inside an `--argv-file`, overflow the queue sized by `argc` and the environment; `--argv-file` followed by a negative number dereferences NULL; a file that names itself twice is opened 2^n - 1 times (C108).
35. `argv_process`: an `ARGV_MAND` argument that is an `ARGV_OR` alternative to an option is accepted together with it (`do_list` does not call `check_or` for positional arguments) (C109).
36. `argv_process`: a long option whose name is the beginning of another one's is always rejected as ambiguous; `-ab=t` gives `t` to both options; the text behind `=` is cut from `argv` itself, so that `argv_copy_args` does not show it (C110).
37. `argv_process` accepts any text for a number: `-n many` is 0, and `-n 4294967297` is 1 (C114).
38. `wdns_str_to_rdata` and the base64 part of `wdns_rdata_to_str` do not check `malloc`/`strdup`/`calloc`: when memory runs out a NULL pointer is dereferenced, while the rest of the library asserts (C115). `wdns_res_malloc` is never returned.
39. `argv_value_string` does not terminate the text of a character or a string, shows every special character as a backslash and a NUL (`snprintf` with size 2), and writes two octets into a buffer of one for a size of 0; a binary number it shows (`0b101 (5)`) is read back as 0 (C116).
40. `argv_long_was_used` compares addresses instead of names: unless the caller has the very pointer of the array, the answer is always no (C118).
41. After a refused command line with an option of type string that lacks its value, `argv_cleanup` frees the variable's default, which may be a literal; a second `argv_cleanup` frees the strings twice (C119).
42. The text of a message does not show the reserved header bit, nor EDNS flags other than DO, and shows nothing of the rdata of an IN-only type in another class: different packets give the same text (C120).
43. The short usage message leaves out flags that have only a long name, and writes a NUL octet for options with a value that have only a long name; a long name of 30 octets or more makes the label be written without limit (C121).
44. `argv_help_string` is never shown: `--help` is caught as `--usage` before (C122).
45. The messages about an option given twice, or missing, name it by its short name, which for options that have only a long name is an octet 0; the message about arrays of incremental values can never be written (C123).
46. `WDNS_LIBRARY_VERSION_NUMBER` is defined without parentheses: `WDNS_LIBRARY_VERSION_NUMBER / n` divides only its last term (C125).
47. `argv_process_no_env` is exported but does not call `argv_startup`: if it is the first call, `argv_error_stream` is still `(FILE *)0x1`, and any message is written there (C126).
48. `wdns_domain_to_str` reads the octet behind its `src_len` octets if no zero octet is among them where a length is due, and returns a length beyond `src_len` for a label that is cut off (C127).
