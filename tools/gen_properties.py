#!/usr/bin/env python3
"""Generates /verif/properties.jsonl (kept as a script so that the list is easy to edit)."""
import json, os
P = []
def p(id, title, statement, quantifier, why, anchors):
    P.append(dict(id=id, title=title, statement=statement, quantifier=quantifier,
                  why_tests_cant=why, anchors=anchors))

A = lambda f, *s: {"file": f, "symbols": list(s)}

# ---------------------------------------------------------------- names
p("C01", "Unpacked names are well-formed",
  "Whenever wdns_unpack_name returns success, the bytes it stored in dst are exactly the wire form of a domain name: labels of 1..63 octets each preceded by its length, one terminating zero octet, at most 255 octets in total, and *sz is that total length.",
  "every message buffer, every start offset",
  "the set of messages (arbitrary bytes, arbitrary pointer graphs) is unbounded; tests sample a few packets",
  [A("wdns/unpack_name.c", "wdns_unpack_name")])
p("C02", "Decompression is exactly RFC 1035 decompression",
  "wdns_unpack_name succeeds on a name if and only if the labels and (strictly backward) compression pointers starting at src denote a domain name of at most 255 octets, and then it returns exactly that name; otherwise the result code names the first fault that is met.",
  "every message buffer, every start offset, every chain of labels and pointers",
  "needs every pointer graph, including chains that re-enter the middle of other names",
  [A("wdns/unpack_name.c", "wdns_unpack_name")])
p("C03", "Decompression always terminates",
  "wdns_unpack_name returns after a bounded number of loop iterations on every input, including messages whose compression pointers form cycles.",
  "every message buffer, every start offset",
  "non-termination on a single crafted pointer loop is a denial of service; a test that passes shows nothing about other loops",
  [A("wdns/unpack_name.c", "wdns_unpack_name")])
p("C04", "Decompression is memory safe",
  "wdns_unpack_name writes at most WDNS_MAXLEN_NAME (255) bytes to dst, on success and on failure, and reads only bytes of the message [p, eop).",
  "every message buffer, every start offset",
  "an out-of-bounds access of one byte is invisible to functional tests",
  [A("wdns/unpack_name.c", "wdns_unpack_name")])
p("C05", "Forward and self compression pointers are rejected",
  "If wdns_unpack_name encounters a compression pointer whose target is not strictly before the pointer itself, it returns wdns_res_invalid_compression_pointer.",
  "every message buffer, every pointer position and target",
  "all pointer positions and targets",
  [A("wdns/unpack_name.c", "wdns_unpack_name")])
p("C06", "Uncompressed names are copied verbatim",
  "For every well-formed name stored uncompressed inside a message, wdns_unpack_name and wdns_copy_uname both succeed and return the name octet for octet; wdns_copy_uname rejects every name that contains a compression pointer, and whenever wdns_copy_uname succeeds wdns_unpack_name gives the same result.",
  "every well-formed name, every message that contains it, every offset",
  "all names up to 255 octets and all surrounding contexts",
  [A("wdns/copy_uname.c", "wdns_copy_uname"), A("wdns/unpack_name.c", "wdns_unpack_name")])
p("C07", "Skipping a name stays in the buffer",
  "wdns_skip_name never moves the cursor past the end of the buffer, never moves it backwards, and returns exactly the distance moved.",
  "every buffer, every start offset, well-formed or not",
  "all byte sequences, including truncated and malformed names",
  [A("wdns/skip_name.c", "wdns_skip_name")])
p("C08", "Skipping agrees with decoding",
  "For every name that wdns_unpack_name accepts within the buffer, wdns_skip_name advances exactly over the octets of the (possibly compressed) encoding: to one past the terminating zero octet or one past the first compression pointer.",
  "every message buffer and every offset at which a name lies",
  "two independent walkers of the same bytes must agree on every input, otherwise every later field of the record is misread",
  [A("wdns/skip_name.c", "wdns_skip_name"), A("wdns/unpack_name.c", "wdns_unpack_name")])
p("C09", "Length of an uncompressed name",
  "wdns_len_uname succeeds exactly when the buffer starts with a complete well-formed uncompressed name and then reports its exact length, which never exceeds the buffer or 255.",
  "every buffer",
  "all byte sequences including unterminated names",
  [A("wdns/len_uname.c", "wdns_len_uname")])
p("C10", "Label counting",
  "wdns_count_labels on a well-formed name succeeds and reports the number of labels.",
  "every well-formed name", "all names", [A("wdns/count_labels.c", "wdns_count_labels")])
p("C11", "Chopping removes exactly the leftmost label",
  "wdns_left_chop on a well-formed non-root name yields the well-formed name without its first label, on the root yields the root; applying it count_labels times reaches the root.",
  "every well-formed name", "all names and all iteration counts", [A("wdns/left_chop.c", "wdns_left_chop")])
p("C12", "Subdomain test is proper label-suffix",
  "For well-formed names wdns_is_subdomain succeeds and reports true exactly when n1's label sequence is a proper suffix of n0's; hence it is irreflexive, asymmetric and transitive, and every non-root name is a subdomain of the root.",
  "every pair (triple) of well-formed names", "all pairs of names; algebraic laws over triples",
  [A("wdns/is_subdomain.c", "wdns_is_subdomain", "gen_label_offsets", "compare_label")])
p("C13", "Name reversal",
  "wdns_reverse_name on a well-formed name produces the well-formed name with the labels in reverse order, using exactly the bytes of the caller's buffer; applying it twice gives the original name.",
  "every well-formed name", "all names", [A("wdns/reverse_name.c", "wdns_reverse_name")])
p("C14", "Name downcasing",
  "wdns_downcase_name changes only ASCII A-Z octets, to a-z, keeps the length and the label structure, is idempotent, and two names become equal exactly when they are equal ignoring ASCII case.",
  "every name buffer", "all byte strings", [A("wdns/downcase_name.c", "wdns_downcase_name")])
p("C15", "Name text round trip",
  "For every well-formed name, converting to presentation form with wdns_domain_to_str and back with wdns_str_to_name_case gives the identical wire name, and with wdns_str_to_name the lower-cased wire name.",
  "every well-formed name, any octet values in the labels",
  "all octet values and label shapes, including escapes of dots, backslashes and non-printables",
  [A("wdns/domain_to_str.c", "wdns_domain_to_str"), A("wdns/str_to_name.c", "wdns_str_to_name_case", "wdns_str_to_name")])
p("C16", "Name text is safe and bounded",
  "For every well-formed name wdns_domain_to_str reads exactly the name, returns its length, writes at most WDNS_PRESLEN_NAME (1025) bytes including the terminating NUL, and the text consists of printable non-space ASCII only; different names give different texts.",
  "every well-formed name", "worst case expansion over all 255 octet names",
  [A("wdns/domain_to_str.c", "wdns_domain_to_str")])
p("C17", "Parsed names are well-formed",
  "Whenever wdns_str_to_name or wdns_str_to_name_case succeeds the result is a well-formed wire name: labels of 1..63 octets, one terminating zero, at most 255 octets.",
  "every NUL-terminated string", "all strings, all label lengths",
  [A("wdns/str_to_name.c", "_wdns_str_to_name")])
p("C18", "Name parsing is memory safe",
  "wdns_str_to_name never writes outside the 255 byte name buffer it allocates and never reads beyond the terminating NUL of its argument.",
  "every NUL-terminated string", "all strings, including ones ending in the middle of an escape",
  [A("wdns/str_to_name.c", "_wdns_str_to_name")])
p("C19", "Lower-casing parse is parse then lower-case",
  "wdns_str_to_name(s) gives the same result as wdns_str_to_name_case(s) followed by wdns_downcase_name.",
  "every NUL-terminated string", "all strings, including escaped upper-case letters",
  [A("wdns/str_to_name.c", "wdns_str_to_name", "wdns_str_to_name_case"), A("wdns/downcase_name.c", "wdns_downcase_name")])
p("C20", "Trailing dot is optional; empty labels are rejected",
  "For plain text (no backslash, not ending in a dot, non-empty) wdns_str_to_name gives the same result with and without a trailing dot (up to the reported overflow at the 255 octet limit); text with two consecutive dots or a leading dot followed by more text is rejected with wdns_res_parse_error or wdns_res_name_overflow.",
  "every such string", "all strings", [A("wdns/str_to_name.c", "_wdns_str_to_name")])

# ---------------------------------------------------------------- rrsets
p("C21", "RR / RRset matching",
  "wdns_compare_rr_rrset is true exactly when type and class are equal and the owner names are equal ignoring ASCII case.",
  "every RR and RRset", "all names, types and classes", [A("wdns/compare_rr_rrset.c", "wdns_compare_rr_rrset")])
p("C22", "RRset sorting is canonical",
  "wdns_sort_rrset permutes the rdatas into the order by length then bytes; the outcome depends only on the multiset of rdatas, so any two RRsets with the same rdatas sort to the same sequence whatever algorithm qsort uses; sorting is idempotent.",
  "every RRset, every conforming qsort", "all sequences and every sorting algorithm",
  [A("wdns/sort_rrset.c", "wdns_sort_rrset", "rdata_cmp")])
p("C23", "Serialization round trip",
  "wdns_deserialize_rrset applied to the output of wdns_serialize_rrset (followed by any further bytes) succeeds and yields an RRset equal in every field, on the same byte order.",
  "every RRset, every trailing data, both byte orders", "all RRsets up to 65535 rdatas of up to 65535 bytes",
  [A("wdns/serialize_rrset.c", "wdns_serialize_rrset"), A("wdns/deserialize_rrset.c", "wdns_deserialize_rrset")])
p("C24", "Serialized size is exact",
  "The size reported by wdns_serialize_rrset is exactly the number of bytes it writes.",
  "every RRset", "a one byte mismatch is a heap overflow in every caller; must hold for all shapes",
  [A("wdns/serialize_rrset.c", "wdns_serialize_rrset")])
p("C25", "Deserialization is safe on arbitrary bytes",
  "wdns_deserialize_rrset on any byte string reads only the given sz bytes, either succeeds or returns wdns_res_overflow; every strict prefix of the consumed bytes is rejected with wdns_res_overflow, and re-serializing a success gives back exactly the consumed bytes.",
  "every byte string and length", "all malformed and truncated inputs",
  [A("wdns/deserialize_rrset.c", "wdns_deserialize_rrset")])
p("C26", "RRset grouping",
  "After parsing, in each of the answer, authority and additional sections every RR's rdata appears in exactly one RRset with the same type, class and (case-insensitively) owner name, no two RRsets of a section share type, class and owner name, no RRset is empty, and within an RRset the rdatas keep the order of the RRs.",
  "every sequence of RRs", "all arrival orders and interleavings of owners",
  [A("wdns/insert_rr_rrset_array.c", "_wdns_insert_rr_rrset_array")])
p("C27", "RRset TTL is the minimum",
  "The TTL of each RRset in a parsed section is the minimum of the TTLs of the RRs grouped into it.",
  "every sequence of RRs", "all sequences", [A("wdns/insert_rr_rrset_array.c", "_wdns_insert_rr_rrset_array")])
p("C28", "Question section keeps one entry per question",
  "Inserting questions never merges them: the question section has as many RRsets as RRs, in the same order, with the same owner names, types and classes and no rdata.",
  "every sequence of questions", "all sequences", [A("wdns/insert_rr_rrset_array.c", "_wdns_insert_rr_rrset_array")])

# ---------------------------------------------------------------- messages
p("C29", "Header decoding",
  "For every packet of at least 12 bytes that parses, id and flags are the big-endian header fields, the flag macros recover the individual header bits, and without EDNS rcode is the low 4 bits of flags; shorter packets are rejected with wdns_res_len.",
  "every packet", "all 2^32 header words and all packets",
  [A("wdns/parse_message.c", "wdns_parse_message"), A("wdns/wdns.h.in", "WDNS_FLAGS_QR", "WDNS_FLAGS_OPCODE")])
p("C30", "Section counts are bounded by the header",
  "In every parsed message the number of RRs in a section is at most the count in the header, and the total number of RRs (plus one if EDNS is present) is at most the sum of the header counts.",
  "every packet", "all packets, including ones whose counts lie", [A("wdns/parse_message.c", "wdns_parse_message")])
p("C31", "Names in parsed messages are well-formed",
  "Every owner name of every RR and RRset in a successfully parsed message is a well-formed, uncompressed wire name.",
  "every packet", "all packets", [A("wdns/parse_message.c", "wdns_parse_message"), A("wdns/parse_message_rr.c", "_wdns_parse_message_rr")])
p("C32", "EDNS decoding",
  "The first OPT record of a message sets edns.present, edns.size (class), edns.version (TTL bits 16-23), edns.flags (TTL bits 0-15) and edns.options (rdata), and is not listed in any section; later OPT records are kept as ordinary records; without OPT record edns.present is false and all other EDNS fields are zero.",
  "every packet", "all packets and all positions and multiplicities of OPT records",
  [A("wdns/parse_edns.c", "_wdns_parse_edns"), A("wdns/parse_message.c", "wdns_parse_message")])
p("C33", "Extended RCODE",
  "For a message with an OPT record, rcode is the 12-bit extended RCODE of RFC 6891: the OPT TTL's top byte as upper 8 bits and the header's RCODE as lower 4 bits.",
  "every packet with an OPT record", "all combinations of header and OPT TTL",
  [A("wdns/parse_edns.c", "_wdns_parse_edns"), A("wdns/wdns.h.in", "WDNS_R_BADVERS")])
p("C34", "Message parsing terminates",
  "wdns_parse_message returns on every packet.",
  "every packet", "one crafted packet that loops forever is a denial of service",
  [A("wdns/parse_message.c", "wdns_parse_message"), A("wdns/parse_rdata.c", "_wdns_parse_rdata")])
p("C35", "Message parsing is memory safe",
  "wdns_parse_message reads only the len bytes of the packet, and its result depends only on them.",
  "every packet", "out-of-bounds reads are invisible to functional tests",
  [A("wdns/parse_message.c", "wdns_parse_message"), A("wdns/unpack_name.c", "wdns_unpack_name"), A("wdns/skip_name.c", "wdns_skip_name")])
p("C36", "Failed parses leave nothing behind",
  "When wdns_parse_message fails, every block it allocated has been freed and the message object is empty; when it succeeds, the live blocks are exactly those reachable from the message.",
  "every packet, every point of failure", "every error path at every record",
  [A("wdns/parse_message.c", "wdns_parse_message"), A("wdns/clear.c", "wdns_clear_message"), A("wdns/insert_rr_rrset_array.c", "_wdns_insert_rr_rrset_array")])
p("C37", "Clearing frees everything exactly once",
  "wdns_clear_message on a message built by the parser frees every block reachable from it exactly once (no leak, no double free) and clearing again is harmless.",
  "every message built by the parser", "all shapes of messages",
  [A("wdns/clear.c", "wdns_clear_message", "wdns_clear_rrset", "wdns_clear_rr", "wdns_clear_rrset_array")])
p("C38", "Uncompressed rdata is stored verbatim",
  "If the names embedded in an accepted rdata are not compressed, the stored rdata equals the wire rdata byte for byte; in particular parsing is idempotent: parsing a stored rdata again gives the same rdata.",
  "every record type, class and rdata", "all types and all rdata",
  [A("wdns/parse_rdata.c", "_wdns_parse_rdata"), A("wdns/record_descr.c", "record_descr_array")])
p("C39", "Stored rdata length",
  "The length field of a stored rdata is the number of bytes of the decompressed rdata (it never silently wraps).",
  "every record", "needs records near the 65535 byte limit with compression",
  [A("wdns/parse_rdata.c", "_wdns_parse_rdata")])
p("C40", "Known rdata is checked against its schema",
  "For record types with a known layout, a successfully parsed rdata is the concatenation of fields conforming to that layout (possibly truncated at a field boundary), consuming exactly rdlen bytes.",
  "every record type, class and rdata", "all types and all byte strings",
  [A("wdns/parse_rdata.c", "_wdns_parse_rdata"), A("wdns/record_descr.c", "record_descr_array")])
p("C41", "Unknown types are opaque",
  "For every record type without a known layout, and for class-specific types in another class, any rdata is accepted and stored byte for byte.",
  "every unknown type, every rdata", "65536 types times all rdata",
  [A("wdns/parse_rdata.c", "_wdns_parse_rdata")])

# ---------------------------------------------------------------- text
p("C42", "Accepted rdata renders without error marker",
  "For every rdata accepted by the parser (other than OPT), wdns_rdata_to_str produces a text without the '### PARSE ERROR' marker and without touching memory outside the rdata.",
  "every record type, class and accepted rdata", "all types and all rdata",
  [A("wdns/rdata_to_ubuf.c", "_wdns_rdata_to_ubuf"), A("wdns/parse_rdata.c", "_wdns_parse_rdata")])
p("C43", "Rendered text is printable",
  "The text produced by wdns_rdata_to_str contains only printable ASCII (and newlines between EDNS options), never a NUL or control byte, for every rdata on which it does not access memory out of bounds.",
  "every type, class and rdata", "terminal-injection safety must hold for every byte sequence",
  [A("wdns/rdata_to_ubuf.c", "_wdns_rdata_to_ubuf")])
p("C44", "Rdata text round trip",
  "wdns_str_to_rdata(wdns_rdata_to_str(rdata)) = rdata for every rdata accepted by the parser.",
  "every record type, class and accepted rdata", "all types and all rdata; printer and scanner are independent code",
  [A("wdns/rdata_to_ubuf.c", "_wdns_rdata_to_ubuf"), A("wdns/str_to_rdata_ubuf.c", "_wdns_str_to_rdata_ubuf"), A("wdns/rdata_to_str.c", "wdns_rdata_to_str", "wdns_str_to_rdata")])
p("C45", "Failed rdata scans leave the buffer untouched",
  "When scanning an rdata text fails the output buffer is restored to its previous contents; when it succeeds the previous contents are kept as a prefix.",
  "every text, type and class", "every error path",
  [A("wdns/str_to_rdata_ubuf.c", "_wdns_str_to_rdata_ubuf")])
p("C46", "Generic rdata round trip",
  "For every record type without a known layout, the RFC 3597 text produced by wdns_rdata_to_str is scanned back by wdns_str_to_rdata to the identical bytes.",
  "every unknown type, every rdata up to 65535 bytes", "all types and rdata",
  [A("wdns/rdata_to_ubuf.c", "_wdns_rdata_to_ubuf"), A("wdns/str_to_rdata_ubuf.c", "_wdns_str_to_rdata_ubuf")])
p("C47", "Record type names",
  "wdns_str_to_rrtype inverts wdns_rrtype_to_str for every named type, ignoring letter case, and maps TYPE<n> to n for every n in 0..65535; type names are pairwise distinct.",
  "all 65536 types, all letter cases", "binary search over a generated table whose order depends on a Python sort",
  [A("wdns/gen_rrtype_to_str", "wdns_rrtype_to_str", "wdns_str_to_rrtype")])
p("C48", "Record class names",
  "wdns_str_to_rrclass inverts wdns_rrclass_to_str for every named class, ignoring letter case, and maps CLASS<n> to n for every n in 0..65535.",
  "all 65536 classes, all letter cases", "as C47", [A("wdns/gen_rrclass_to_str", "wdns_rrclass_to_str", "wdns_str_to_rrclass")])
p("C49", "Rcode names",
  "wdns_str_to_rcode inverts wdns_rcode_to_str for every named rcode ignoring letter case, and fails on every string that is not an rcode name.",
  "all rcodes and all strings", "all strings", [A("wdns/gen_rcode_to_str", "wdns_rcode_to_str", "wdns_str_to_rcode")])
p("C50", "SvcParam key names",
  "For every SvcParamKey except the reserved 65535, scanning the printed key name gives the key back.",
  "all 65535 keys", "all keys", [A("wdns/svcparamkeys_to_str.c", "_wdns_svcparamkey_to_str", "_wdns_str_to_svcparamkey")])
p("C51", "Base64 round trip",
  "Base64 decoding inverts base64 encoding, and encoding n bytes yields 4*ceil(n/3) characters of the standard alphabet.",
  "every byte string", "all byte strings", [A("libmy/b64_encode.c", "base64_encode_block", "base64_encode_blockend"), A("libmy/b64_decode.c", "base64_decode_block")])
p("C52", "Base32hex round trip",
  "Unpadded base32hex decoding inverts encoding, in either letter case, and the encoder never exceeds the buffer the renderer gives it.",
  "every byte string", "all byte strings", [A("libmy/b32_encode.c", "base32_encode"), A("libmy/b32_decode.c", "base32_decode")])
p("C53", "Hex formatting",
  "Hex formatting of a byte yields two hex digits of the requested case that scan back to the byte.",
  "all bytes, both cases, all buffer sizes", "all byte strings and buffer sizes", [A("libmy/my_format.c", "my_bytes_to_hex_str")])
p("C54", "Decimal formatting",
  "my_uint64_to_str yields the decimal representation of the number when the buffer is large enough (as for every caller in the library), and never writes outside the buffer.",
  "all 64-bit numbers and buffer sizes", "all numbers", [A("libmy/my_format.c", "my_uint64_to_str")])
p("C55", "IPv4 text",
  "fast_inet4_ntop yields the dotted quad of the four octets without leading zeros, in at most 15 characters, and scanning it gives the address back.",
  "all 2^32 addresses", "all addresses", [A("libmy/fast_inet_ntop.c", "fast_inet4_ntop")])
p("C56", "IPv6 text",
  "fast_inet6_ntop yields a text of at most 45 characters from which inet_pton recovers the address; hence it is injective.",
  "all 2^128 addresses", "all addresses", [A("libmy/fast_inet_ntop.c", "fast_inet6_ntop", "print_hex_uint16_t")])
p("C57", "Growable buffer",
  "Any sequence of operations on a ubuf/vector (init, add, append, reserve, clip, reset, detach, extend, advance within reserved space) behaves like the same operations on a plain sequence and never writes outside the allocated storage.",
  "every operation sequence", "all histories", [A("libmy/vector.h", "VECTOR_GENERATE"), A("libmy/ubuf.h", "ubuf_add_cstr", "ubuf_cterm", "ubuf_add_fmt")])
p("C58", "Rdata downcasing changes letter case only",
  "wdns_downcase_rdata keeps the rdata length and changes only bytes in A-Z, to a-z; types outside the RFC 4034 6.2 list are untouched; on success it is idempotent.",
  "every type, class and rdata", "all types and rdata", [A("wdns/downcase_rdata.c", "wdns_downcase_rdata")])
p("C59", "Parsed rdata can be downcased",
  "wdns_downcase_rdata succeeds on every rdata accepted by the parser, lower-casing exactly its embedded names.",
  "every type, class and accepted rdata", "all types and rdata", [A("wdns/downcase_rdata.c", "wdns_downcase_rdata"), A("wdns/parse_rdata.c", "_wdns_parse_rdata")])
p("C60", "Rdata downcasing is memory safe",
  "wdns_downcase_rdata accesses only the bytes of the rdata, for every rdata, well-formed or not.",
  "every type, class and rdata", "all malformed rdata", [A("wdns/downcase_rdata.c", "wdns_downcase_rdata")])
p("C61", "EDNS option rendering",
  "Rendering EDNS options is memory safe for every option rdata, and a client-subnet option renders its address padded with zero octets and both prefix lengths.",
  "every option rdata", "all option lists", [A("wdns/edns_options.c", "_wdns_ednsoptdata_to_ubuf", "ip_to_ubuf"), A("wdns/rdata_to_ubuf.c", "_wdns_rdata_to_ubuf")])
p("C62", "Message rendering",
  "wdns_message_to_str of a parsed message is defined (no undefined behaviour) and lists each RR of each section exactly once, in order, after its section header.",
  "every parsed message", "all messages", [A("wdns/message_to_str.c", "wdns_message_to_str"), A("wdns/rr_to_ubuf.c", "_wdns_rr_to_ubuf")])
p("C63", "Loading names from a file",
  "wdns_file_load_names calls the callback once per non-comment line, in order, with the lower-cased parsed name of that line, stopping at the first malformed line with its error; no memory outside the line buffer is accessed.",
  "every file contents", "all file contents, including long lines and NUL bytes", [A("wdns/file_load_names.c", "wdns_file_load_names")])
p("C64", "Rendering an RRset",
  "wdns_rrset_to_str of any RRset of a parsed message is defined (no undefined behaviour) and renders one line per rdata (one line for a question).",
  "every RRset in every parsed message, every section", "all messages", [A("wdns/rrset_to_ubuf.c", "_wdns_rrset_to_ubuf")])
p("C65", "Type bitmap construction",
  "Scanning a list of type names yields the canonical NSEC type bitmap of exactly that set of types (ascending windows, no empty window, no trailing zero octet), independent of order and duplicates.",
  "every list of types", "all subsets of 65536 types in all orders", [A("wdns/str_to_rdata_ubuf.c", "_wdns_str_to_rdata_ubuf"), A("wdns/rdata_to_ubuf.c", "_wdns_rdata_to_ubuf")])
p("C66", "Result codes, opcodes",
  "wdns_res_to_str is defined and distinct for every result code; wdns_opcode_to_str is defined exactly for the five known opcodes and distinct on them.",
  "all result codes and all 65536 opcodes", "finite but complete tables", [A("wdns/res_to_str.c", "wdns_res_to_str"), A("wdns/opcode_to_str.c", "wdns_opcode_to_str")])
p("C67", "A parsed message is exactly the records of the packet",
  "If a packet is a header followed by well-formed records, wdns_parse_message succeeds and the message holds exactly these records (header, EDNS, sections, RRsets); conversely, if it succeeds, the packet is a header followed by such records.",
  "every packet", "all packets of all lengths", [A("wdns/parse_message.c", "wdns_parse_message"), A("wdns/parse_message_rr.c", "_wdns_parse_message_rr"), A("wdns/insert_rr_rrset_array.c", "_wdns_insert_rr_rrset_array")])
p("C68", "Failed deserialization leaves nothing behind",
  "When wdns_deserialize_rrset fails, every block it allocated has been freed and the RRset object is empty; when it succeeds, exactly the blocks reachable from the RRset are new and wdns_clear_rrset releases each of them exactly once.",
  "every buffer, every point of failure", "every error path at every rdata", [A("wdns/deserialize_rrset.c", "wdns_deserialize_rrset"), A("wdns/clear.c", "wdns_clear_rrset")])

p("C69", "Reading rdata text is defined for every text",
  "wdns_str_to_rdata returns with an rdata or an error on every NUL-terminated text, for every type and class, without reading outside the text, without using an uninitialised value and without looping forever.",
  "every text, type and class", "arbitrary malformed text of any length for all 80 layouts", [A("wdns/str_to_rdata_ubuf.c", "_wdns_str_to_rdata_ubuf"), A("wdns/rdata_to_str.c", "wdns_str_to_rdata")])
p("C70", "The grammar of name texts",
  "wdns_str_to_name and wdns_str_to_name_case accept exactly the RFC 1035 texts (labels separated by single dots, optional final dot, escapes \\X and \\DDD up to 255) whose name fits in 255 octets, and return the wire form of that name; for any other text the first fault from the left decides between wdns_res_parse_error and wdns_res_name_overflow.",
  "every text", "the grammar has infinitely many texts; both acceptance and rejection are claimed", [A("wdns/str_to_name.c", "wdns_str_to_name"), A("wdns/str_to_name.c", "wdns_str_to_name_case")])
p("C71", "The grammar of TXT rdata texts",
  "wdns_str_to_rdata on TXT accepts exactly the texts that are a blank-separated list of quoted or bare character strings of at most 255 octets (escapes \\X and \\DDD up to 255), and returns exactly those strings, each behind its length octet; the reading of a text is unique.",
  "every text", "the grammar has infinitely many texts; both acceptance and rejection are claimed", [A("wdns/str_to_rdata_ubuf.c", "_wdns_str_to_rdata_ubuf", "rdata_from_str", "str_to_ubuf")])
p("C72", "The grammar of address texts",
  "wdns_str_to_rdata on A and AAAA accepts exactly the texts whose first word is an IPv4 dotted quad or an RFC 4291 IPv6 address (any legal compression, embedded IPv4), and returns exactly the 4 or 16 octets the address denotes; no text denotes two addresses.",
  "every text", "infinitely many spellings; both acceptance and rejection are claimed", [A("wdns/str_to_rdata_ubuf.c", "_wdns_str_to_rdata_ubuf")])
p("C73", "The grammar of rdata texts",
  "For every record type, wdns_str_to_rdata accepts exactly the texts that are a sequence of fields of the type's presentation layout (names, numbers, addresses, strings, hexadecimal, base64, base32hex, type lists, EUIs, service parameters, A6 prefixes) or, for a type without a layout, the generic form, and returns exactly the octets those fields stand for; no text has two readings.",
  "every record type, class and text", "infinitely many texts per layout; both acceptance and rejection are claimed", [A("wdns/str_to_rdata_ubuf.c", "_wdns_str_to_rdata_ubuf", "str_to_svcparam"), A("wdns/record_descr.c", "record_descr_array")])
p("C74", "Rendering arbitrary octets as rdata",
  "wdns_rdata_to_str returns a text for any octets handed to it as rdata of any type and class without reading outside them, except exactly when a domain name is due in the layout of the type and only labels without a root label are left; and the text ends with the marker ### exactly for rdata that cannot be walked through along the layout of its type.",
  "every type, class and sequence of fewer than 65536 octets", "arbitrary malformed octets for all layouts; the claim is exact in both directions", [A("wdns/rdata_to_ubuf.c", "_wdns_rdata_to_ubuf"), A("wdns/rdata_to_str.c", "wdns_rdata_to_str"), A("wdns/len_uname.c", "wdns_len_uname")])
p("C75", "Reading rdata text in several threads",
  "wdns_str_to_rdata called by several threads at the same time (on NSEC3 text, whose hash is base32hex) gives each caller the result it would get alone, in every interleaving, whether or not the decoding table has been used before; no call waits for another.",
  "any number of calls, all texts, all schedules", "the wrong results need a particular interleaving of the very first calls of the process", [A("libmy/b32_decode.c", "base32_decode", "base32_map"), A("wdns/str_to_rdata_ubuf.c", "_wdns_str_to_rdata_ubuf")])
p("C76", "Reading and writing text leaks nothing",
  "wdns_str_to_name, wdns_str_to_name_case, wdns_str_to_rdata, the wdns_*_to_str functions, the wdns_print_* functions and wdns_file_load_names allocate exactly the blocks they hand out: after success the result is the only new live block (none for wdns_print_*, one per name for wdns_file_load_names, whose file is closed), after an error there is none; no block is freed twice or used after it is freed.",
  "every text, rdata, record, message and file, every path out of each function", "every error path of every field of every layout", [A("wdns/str_to_rdata_ubuf.c", "_wdns_str_to_rdata_ubuf", "base64_str_to_ubuf"), A("wdns/str_to_name.c", "_wdns_str_to_name"), A("wdns/rdata_to_str.c", "wdns_rdata_to_str", "wdns_str_to_rdata"), A("wdns/message_to_str.c", "wdns_message_to_str"), A("wdns/print_message.c", "wdns_print_message"), A("wdns/file_load_names.c", "wdns_file_load_names")])
p("C77", "Text accepted as rdata gives usable rdata",
  "If wdns_str_to_rdata accepts a text, the rdata it returns is usable: placed in a message, the parser accepts it and returns the same octets, wdns_rdata_to_str prints it without an error, and reading that text gives the same octets again.",
  "every record type and class, every text that is accepted", "all texts of all layouts, including those with long labels, empty parameter values and odd lengths", [A("wdns/str_to_rdata_ubuf.c", "_wdns_str_to_rdata_ubuf"), A("wdns/rdata_to_str.c", "wdns_str_to_rdata", "wdns_rdata_to_str"), A("wdns/parse_rdata.c", "_wdns_parse_rdata")])
p("C78", "RRsets of parsed messages can be stored and compared as bytes",
  "Every RRset of every message accepted by wdns_parse_message can be serialized (into exactly the size reported) and deserialized to an equal RRset; RRsets with the same name, type, class, TTL and the same rdatas in any order, from whatever messages, have the same serialization after wdns_sort_rrset.",
  "every packet the parser accepts, every section, every RRset, both byte orders, every qsort", "all packets and all orders of records", [A("wdns/parse_message.c", "wdns_parse_message"), A("wdns/serialize_rrset.c", "wdns_serialize_rrset"), A("wdns/deserialize_rrset.c", "wdns_deserialize_rrset"), A("wdns/sort_rrset.c", "wdns_sort_rrset")])
p("C79", "Name compression and announced counts are transparent",
  "Two packets with the same identifier and flags that carry the same records, section by section, are parsed to the same message, however their names are compressed and whatever follows the packets in memory.",
  "every pair of packets that carry the same records", "all ways to compress the names of a message", [A("wdns/parse_message.c", "wdns_parse_message"), A("wdns/unpack_name.c", "wdns_unpack_name"), A("wdns/parse_message_rr.c", "_wdns_parse_message_rr")])
p("C80", "Functions on names bear any name object",
  "On a name object of arbitrary octets wdns_count_labels, wdns_is_subdomain, wdns_left_chop and wdns_reverse_name either give the right answer for the labels in it or report an error; they touch nothing outside the name and the output buffer.",
  "every octet string and every length, well-formed or not", "all malformed names", [A("wdns/count_labels.c", "wdns_count_labels"), A("wdns/is_subdomain.c", "wdns_is_subdomain"), A("wdns/left_chop.c", "wdns_left_chop"), A("wdns/reverse_name.c", "wdns_reverse_name")])
p("C81", "Variable-length integers are exact, shortest and self-delimiting",
  "varint_encode32/64 write the unique shortest base-128 form of the number and return its length, which varint_length announces; varint_length_packed finds that length in any octets; varint_decode32/64 give the number back; nothing outside the encoded octets is touched.",
  "every 32- or 64-bit number and every octet string", "2^64 numbers and all octet strings", [A("libmy/varint.c", "varint_encode32", "varint_encode64", "varint_decode32", "varint_decode64", "varint_length", "varint_length_packed")])
p("C82", "The lock-free queue hands over every item once, in order, whole",
  "With one inserting and one removing thread on a machine with store buffers (x86-TSO), under every schedule of octet-sized steps and buffer flushes, the removed items are a prefix of the inserted items, at most n-1 items are inside, a call is refused only if the queue is full (empty) as far as the caller can see, the reported space and count are never too large, and every call ends after a bounded number of its own steps.",
  "every capacity and item size that fit in 32 bits, every item, every interleaving of the two threads and of the delayed stores", "all schedules and store delays", [A("libmy/my_queue_mb.c", "my_queue_mb_init", "my_queue_mb_insert", "my_queue_mb_remove"), A("libmy/my_memory_barrier.h", "smp_mb", "smp_wmb")])
p("C83", "The mutex queue is linearizable",
  "With any number of inserting and removing threads under every schedule, the calls in the order in which they return are a history of a sequential bounded FIFO queue with capacity n-1, including which calls are refused; a thread in the critical section leaves it after a bounded number of its own steps.",
  "every number of threads, every schedule, every item", "all schedules", [A("libmy/my_queue_mutex.c", "my_queue_mutex_init", "my_queue_mutex_insert", "my_queue_mutex_remove")])
p("C84", "CRC-32C is exact on every machine and detects bursts and odd errors",
  "my_crc32c returns the CRC-32C of the octets (the complemented remainder on division by Castagnoli's polynomial over GF(2)), reading only them, for every length and every alignment, by tables on either byte order as well as with the processor's instructions; so the result does not depend on the machine. Two messages of the same checksum cannot differ only within 32 consecutive bits, nor (at equal length) in an odd number of bits.",
  "every octet string, length, address, byte order and processor", "all messages and alignments", [A("libmy/crc32c.c", "my_crc32c"), A("libmy/crc32c-slicing.c", "my_crc32c_slicing", "g_crc_slicing"), A("libmy/crc32c-sse42.c", "my_crc32c_sse42")])
p("C85", "The priority queue loses nothing and returns the first item",
  "Every sequence of heap_push, heap_pop, heap_replace and heap_peek on a new heap stays within its storage and returns; whatever the comparison function answers, the heap is exactly the bag of what was put in and not taken out; if the comparison function is a strict weak order, the returned item goes before (or ties with) every other, so that popping everything sorts; a call makes at most 2 log2(n+1) comparisons; heap_get(i) gives the i-th item or NULL.",
  "every sequence of calls, every comparison function, every item", "all histories", [A("libmy/heap.c", "heap_push", "heap_pop", "heap_replace", "heap_peek", "heap_get", "siftup", "siftdown")])
p("C86", "Hashes depend only on the key and the seeds",
  "my_hashlittle, my_hashlittle2 and my_hashbig return Jenkins's lookup3 hash of the octets of the key: the same for every alignment of the key, every byte order of the machine and with or without VALGRIND, and independent of what follows the key; no octet outside the key is read; my_hashword and my_hashword2 give the hash of the words, equal to that of the octets of the array in little- (or big-) endian order; the mixing steps lose no information.",
  "every key, length, address, seed, machine and configuration", "all keys, lengths modulo 12 and alignments, on machines of both byte orders", [A("libmy/lookup3.c", "my_hashword", "my_hashword2", "my_hashlittle", "my_hashlittle2", "my_hashbig")])
p("C87", "Address ranges",
  "ip4_lower/ip4_upper and ip6_lower/ip6_upper write the lowest and the highest address that agree with the given address in its first prefix_len bits, for every prefix length from 0 to 32 or 128; ip4_incr and ip6_incr write the next address, the last one being followed by the first.",
  "every address and every prefix length", "2^32 and 2^128 addresses times all prefix lengths", [A("libmy/ip_arith.h", "ip4_lower", "ip4_upper", "ip4_incr", "ip6_lower", "ip6_upper", "ip6_incr")])
p("C88", "File set",
  "For every history of reloads of a file set: the set consists of the listed files that exist, in bytewise order; what has been loaded and not unloaded is exactly what the set holds; nothing is unloaded twice, a file that stays listed keeps its pointer and is neither loaded nor unloaded again; destroying the set unloads everything.",
  "every sequence of reloads, of set file contents, of files that come and go, of failures of stat and fopen, every conforming qsort and bsearch", "unbounded histories over an external file system", [A("libmy/my_fileset.c", "my_fileset_reload", "my_fileset_init", "my_fileset_destroy", "my_fileset_get", "setfile_updated", "fetch_entry")])
p("C89", "Hexadecimal input of the test programs",
  "hex_decode accepts exactly the non-empty texts of pairs of hexadecimal digits of either case and yields the octets they denote in one new block; every other text is refused with the heap as before; no access is out of bounds. The driver exits with 0 exactly if the text decodes and the load function accepts the octets, prints exactly what the test function prints, and leaves no block behind.",
  "every text, every heap, every load and test function", "unbounded text and every load/test function", [A("libmy/hex_decode.h", "hex_decode", "hex_to_int"), A("examples/wdns-hex-driver.c", "main", "hex_decode")])
p("C90", "Captured packets",
  "wdns-dump-pcap hands to the parser exactly the captured part of the UDP payload of an IPv4/UDP frame, and for no capture octets outside it.",
  "every capture: any octets, any capture length below 2^32, any padding", "unbounded packets, attacker-chosen header fields", [A("examples/wdns-dump-pcap.c", "packet_handler")])
p("C91", "Dumping a file",
  "wdns-dump-file refuses every file of 4096 octets or more; on every smaller file it ends without reading outside its array, exits with 0 exactly if the parser accepts the file (with a zero octet behind it) and then prints the header, EDNS and one line per record of the message, and otherwise exits with 1 and prints nothing.",
  "every file contents of every length", "unbounded set of files, any record layout", [A("examples/wdns-dump-file.c", "main", "process_data"), A("wdns/parse_message.c", "wdns_parse_message"), A("wdns/print_message.c", "wdns_print_message")])
p("C92", "Serializing and deserializing test programs",
  "For a packet the parser accepts, wdns-test-serialize-rrset prints one hexadecimal line per RRset of the answer, authority and additional sections, in order, and wdns-test-deserialize-rrset given such a line prints the lines of exactly this RRset, and wdns-test-downcase-rrset those of this RRset with the names of RFC 4034 6.2 lower-cased; no block is left behind.",
  "every accepted packet, both byte orders, every heap", "unbounded packets and a composition of two programs", [A("examples/wdns-test-serialize-rrset.c", "testfunc", "print_data"), A("examples/wdns-test-deserialize-rrset.c", "loadfunc", "testfunc"), A("examples/wdns-test-downcase-rrset.c", "loadfunc", "testfunc"), A("examples/wdns-hex-driver.c", "main")])
p("C93", "Replacing a string",
  "string_replace with a non-empty search string ends and returns the text in which the occurrences, searched from the left and not overlapping, are replaced, and nothing else is changed.",
  "every text, search string and replacement", "unbounded strings; overlapping occurrences", [A("libmy/string_replace.h", "string_replace")])
p("C94", "Reading an exact number of octets",
  "read_bytes returns true exactly if the descriptor gives the number of octets asked for before it ends or fails, whatever the sizes of the individual reads and however often they are interrupted; the buffer then holds exactly those octets, it is never overrun, and exactly the octets behind them remain to be read.",
  "every sequence of results of read(2)", "unbounded histories of short reads, interruptions and errors", [A("libmy/read_bytes.h", "read_bytes")])
p("C95", "Time arithmetic and rate limiting",
  "Adding and subtracting times is exact and gives normalised results; the next tick is after the given time and at most one period away; calls of my_rate_sleep return at most once per period in every run.",
  "every normalised time in range, every period, every run of calls", "unbounded runs, all clock values", [A("libmy/my_time.h", "my_timespec_add", "my_timespec_sub"), A("libmy/my_rate.c", "my_rate_sleep", "calc_next_tick")])
p("C96", "Thread numbers",
  "In every interleaving the threads that have registered have different numbers, given consecutively from 0; a thread's number is changed only by itself.",
  "every number of threads and every schedule", "schedules are unbounded", [A("libmy/threadnum.c", "my_threadnum_register", "my_threadnum")])
p("C97", "Printing octets in quotation marks",
  "print_string writes printable ASCII only, on one line, with every quotation mark inside escaped, and different octet sequences are written differently.",
  "every octet sequence", "unbounded sequences; injectivity relates pairs", [A("libmy/print_string.h", "print_string")])
p("C98", "Doubly-linked lists",
  "After every history of the list macros in which only unlinked elements are inserted and only linked ones removed or used as position, every list holds exactly the elements it is to hold, in order and linked in both directions, no macro dereferences a bad pointer, and the linked and empty tests are exact.",
  "every number of lists and elements, every history of operations", "unbounded histories over pointer structures", [A("libmy/list.h", "ISC_LIST_APPEND", "ISC_LIST_PREPEND", "ISC_LIST_UNLINK", "ISC_LIST_INSERTBEFORE", "ISC_LIST_INSERTAFTER", "ISC_LIST_APPENDLIST")])
p("C99", "Red-black trees",
  "With a comparison function that orders the elements, every history of insertions and removals (of members) on an empty tree returns what the same history on an ordered set returns, touches no element that is never inserted, and never dereferences a bad pointer; afterwards find, nfind, min, max, next, prev and the loops over all elements in both directions give what they give for that set; and every loop of a call on n elements runs at most 2 log2(n+1) + 2 times.",
  "every comparison function that is a total preorder, every history, every memory", "unbounded histories over pointer structures, and a worst-case bound", [A("libmy/tree.h", "RB_INSERT", "RB_REMOVE", "RB_INSERT_COLOR", "RB_REMOVE_COLOR", "RB_FIND", "RB_NFIND", "RB_NEXT", "RB_PREV", "RB_MINMAX", "RB_FOREACH")])
p("C100", "Splay trees",
  "With a comparison function that orders the elements, every history of insert, remove, find, next, min and max calls on an empty splay tree returns what the same history on an ordered set returns, touches no element that is never inserted, and never dereferences a bad pointer; every loop of a call on n elements runs at most n times; the loop over all elements visits each once in order although every step rearranges the tree. (A removal takes out the member equal to its argument, and returns the argument.)",
  "every comparison function that is a total preorder, every history, every memory", "unbounded histories over pointer structures that even lookups rewrite", [A("libmy/tree.h", "SPLAY", "SPLAY_INSERT", "SPLAY_REMOVE", "SPLAY_FIND", "SPLAY_NEXT", "SPLAY_MINMAX", "SPLAY_MIN", "SPLAY_MAX", "SPLAY_FOREACH")])
p("C101", "Which error codes the functions return",
  "wdns_unpack_name fails only with out_of_bounds, invalid_compression_pointer, name_overflow or invalid_length_octet; _wdns_parse_rdata only with these or parse_error; wdns_parse_message only with these, overflow or len, each of which some message gets, and len exactly for messages shorter than the header. The code that _wdns_parse_rdata and wdns_parse_message return names the first thing that is wrong, reading from left to right: for every code, the inputs rejected with it are described completely. wdns_str_to_name(_case) rejects only with parse_error or name_overflow; wdns_str_to_rdata with parse_error, with name_overflow only if the layout of the type has a name, and with failure exactly for OPT texts that are not blank; name_overflow is returned exactly if everything in front of a name is right and the name is too long, parse_error for every other text that is not read.",
  "every memory content, offset, length, text, type and class", "a code returned on one path of hundreds can only be excluded over all inputs", [A("wdns/unpack_name.c", "wdns_unpack_name"), A("wdns/parse_rdata.c", "_wdns_parse_rdata"), A("wdns/parse_message.c", "wdns_parse_message"), A("wdns/str_to_name.c", "wdns_str_to_name"), A("wdns/str_to_rdata_ubuf.c", "_wdns_str_to_rdata_ubuf")])
p("C102", "A spool directory hands out each file once and loses none",
  "spooldir_init succeeds exactly if the directory and its two subdirectories exist or can be made. Whatever threads call spooldir_next at the same time, whatever other processes create and remove meanwhile and whichever system calls fail: no undefined behaviour, no deadlock, one thread at a time touches the directory stream and the shared buffer; no file is handed out twice; a file that is moved to active is reported, once, to the call that moved it, under its new path; no hidden file is handed out; files in incoming are never lost; a file handed out stays until its owner removes it. A call that is not interfered with takes the first visible regular file that readdir reports.",
  "every interleaving of any number of threads and other processes, every result of every system call, every directory content", "interleavings, failing renames and name collisions cannot be enumerated", [A("libmy/spooldir.c", "spooldir_init", "spooldir_next")])
p("C103", "A zone file is read once, in order, and leaves nothing allocated",
  "zonefile_init_fname opens a file (through zcat if the name ends in .gz) exactly if its first record is a SOA record and nothing in front of it is malformed; the domain is the owner of that record and the serial number is its serial. Otherwise it returns NULL and leaves nothing allocated. Reading n times gives the SOA record, then the other records in the order of the file, then NULL for ever; the count is the number of records so far. Records belong to the caller, and zonefile_destroy releases everything else.",
  "every file content, every file name, every number of reads, every heap", "files and read sequences are unbounded; leaks do not show in results", [A("libmy/zonefile.c", "zonefile_init_fname", "zonefile_read", "zonefile_destroy", "zonefile_get_serial")])
p("C104", "Atomic counters lose no update, and reference counting works",
  "However threads interleave their operations on an atomic counter, the value at the end has changed by the sum of all that was added and subtracted, modulo the width. As long as the true sum fits, reading gives it and every test (zero, negative) tells the truth; of n holders that drop their reference exactly the last one is told so. What reading-and-resetting returned, plus what is left, is all that was added. Setting a counter forgets what was before. Setting an atomic pointer stores the argument exactly if it returns true.",
  "every interleaving of every sequence of operations of any number of threads, both widths", "interleavings cannot be enumerated, and the width matters only beyond 2^31", [A("libmy/atomic.h", "atomic_add", "atomic_sub", "atomic_zero", "atomic_dec_and_test", "atomic_add_negative"), A("libmy/atomic_64.h", "atomic64_zero"), A("libmy/atomic_ptr.h", "atomic_ptr_get", "atomic_ptr_set")])
p("C105", "An integer from the environment",
  "getenv_int returns true exactly if the variable is set to a number as C writes it (decimal, octal after 0, hexadecimal after 0x; white space and a sign may precede), and stores its value; otherwise it returns false and leaves the value alone.",
  "every content of the variable", "strings are unbounded", [A("libmy/getenv_int.h", "getenv_int")])
p("C106", "Byte order and packing into a buffer",
  "my_bswap32 reverses the four octets of a word; a word read from memory and passed through my_le32toh has the little-endian value of the octets on every machine. Packing a message piece by piece into a growable buffer appends exactly the pieces.",
  "every word, both byte orders, every sequence of pieces", "2^32 words on machines that are not at hand; sequences are unbounded", [A("libmy/my_byteorder.h", "my_bswap32", "my_le32toh", "my_htole32"), A("libmy/ubuf-pb.h", "ubuf_protobuf_c_buffer_append")])
p("C107", "A packet cannot make the parser use much more than its size",
  "Decompressing a name takes at most 16766 iterations, and at most 382 more than the offset of the name. The names and rdatas of a parsed message take at most 96 octets for each octet behind the header, the octet behind the packet counting as one. There is at most one record for each five octets behind the header, whatever the header announces. The text of rdata has at most 88 characters for each octet and 30 more, the line of a record at most 88 for each octet of its rdata and 1100 more, the text of a section the sum of these; the text of a packet of n octets has at most 34012 (n - 11) + 1000 characters.",
  "every memory content, packet length, offset, rdata, record type and class", "the worst packet has to be found among all packets", [A("wdns/unpack_name.c", "wdns_unpack_name"), A("wdns/parse_message.c", "wdns_parse_message"), A("wdns/parse_rdata.c", "_wdns_parse_rdata"), A("wdns/insert_rr_rrset_array.c", "_wdns_insert_rr_rrset_array"), A("wdns/rdata_to_ubuf.c", "_wdns_rdata_to_ubuf"), A("wdns/rr_to_ubuf.c", "_wdns_rr_to_ubuf"), A("wdns/message_to_str.c", "wdns_message_to_str")])
p("C108", "Processing a command line returns and stays inside its objects",
  "argv_process returns, for every array of entries, arguments, environment value and argument files, and reads and writes only objects it may use: the entries of the array up to the end, the queue of options that wait for a value, the texts of the arguments.",
  "every array of entries, list of arguments, environment value, file system, standard input", "the number of options waiting for values, the position of the matched entry and the nesting of argument files depend on all inputs together", [A("libmy/argv.c", "argv_process_no_env", "do_list", "do_arg", "check_or", "check_xor", "file_args", "string_to_value")])
p("C109", "A successful command line satisfies the array",
  "If argv_process reports success then no two alternatives of an ARGV_OR or ARGV_XOR group have both been given, at least one entry of every ARGV_XOR group has been given, and every ARGV_MAND argument and every option with ARGV_FLAG_MAND has been given; and except for variables and marks the array is as the program wrote it.",
  "every array of entries, list of arguments, environment value, file system", "options come from three sources in any order, and files inside files", [A("libmy/argv.c", "check_or", "check_xor", "check_mand", "do_arg", "argv_process_no_env")])
p("C111", "Texts in base 2, 8 and 16 are read as their numbers",
  "ARGV_BIN, ARGV_OCT and ARGV_HEX values are exactly the number that the text has in that base, from its first character that is not a space up to the first that is no digit, as long as it is less than 2^31.",
  "every text", "texts have every length", [A("libmy/argv.c", "btoi", "otoi", "htoi")])
p("C112", "argv_copy_args and the environment words are exact",
  "argv_copy_args writes exactly the arguments behind the program's name with one space between them, as far as the buffer goes with a final NUL, and nothing for a size of 0. The value of the ARGV_<PROGRAM> environment variable is split exactly into its words, whatever the path under which the program is called, and they count as if they stood in front of the arguments (or behind them, as argv_env_after_b is set).",
  "every list of arguments, buffer size, environment value", "every size of buffer can cut at every place", [A("libmy/argv.c", "argv_copy_args", "vectorize", "preprocess_env_args", "argv_process_no_env")])
p("C110", "A command line means what it says",
  "If argv_process accepts a command line, whichever way each thing is written in it (-c, --name, an unambiguous abbreviation, the value in the next word or behind '=', arguments by position, and anything behind --), then exactly the entries that it names have been given, and every variable holds exactly the values said for it, in order: the last one for a single variable, all of them for an array, the default if none. argv_was_used says of every option whether it was given.",
  "every array, every list of things to say, every way to write each", "the ways to write combine in every order", [A("libmy/argv.c", "do_list", "do_arg", "string_to_value", "argv_process_no_env")])
p("C113", "Which command lines are accepted",
  "argv_process_no_env reports no error exactly if every option is allowed where it stands (it is no alternative of one given before and, unless repetition is accepted, not given before, arrays and counters excepted), every argument by position has an entry that takes it, every mandatory entry is given, and of every group of which one is required one is given. An option that there is not, one that is ambiguous, and one whose value is missing at the end are rejected, whatever else the line says. An array that describes no command line is rejected, and nothing is changed.",
  "every array, every list of things to say, every way to write each", "the conditions combine in every order", [A("libmy/argv.c", "do_list", "do_arg", "check_or", "check_xor", "check_mand", "check_opt", "argv_process_no_env")])
p("C114", "Values on a command line are read as they are written",
  "Every text that denotes a value of the type of its entry is read as exactly this value: numbers in decimal over the whole range of their type (with or without a sign, whatever follows the digits), sizes with k, m or g, truths, binary, octal and hexadecimal numbers, characters, texts. A flag that is given is 1 (or 0 if it is a negated one), a counter is larger by the number of times it is given, and an array holds one value for each text, in order. A text that denotes no value of the type is rejected.",
  "every type, every text, every number of repetitions", "texts are of any length and ranges are large", [A("libmy/argv.c", "string_to_value", "btoi", "otoi", "htoi"), A("libmy/argv_loc.h", "HAS_ARG")])
p("C115", "Running out of memory never gives a wrong result",
  "Whatever requests for memory are refused while a message is parsed, an RRset deserialized, a name or rdata read from text, names loaded from a file, or rdata, records, RRsets or a message written as text: if the call returns, it returns exactly what it would return with enough memory, having allocated exactly what the result owns and nothing on failure. Otherwise the process is ended by an assertion, and only if a request was refused; nothing undefined happens.",
  "every input, every set of refused requests, every state of the heap", "failures can happen at any request in any combination", [A("libmy/my_alloc.h", "my_malloc", "my_realloc"), A("wdns/parse_message.c", "wdns_parse_message"), A("wdns/str_to_rdata_ubuf.c", "_wdns_str_to_rdata_ubuf"), A("wdns/rdata_to_ubuf.c", "bytes_to_ubuf_base64"), A("wdns/deserialize_rrset.c", "wdns_deserialize_rrset"), A("wdns/str_to_name.c", "_wdns_str_to_name"), A("wdns/message_to_str.c", "wdns_message_to_str"), A("wdns/rr_to_ubuf.c", "_wdns_rr_to_ubuf"), A("wdns/file_load_names.c", "wdns_file_load_names")])
p("C116", "Values of options are shown as text that fits and can be given again",
  "For a value of any type, the buffer gets its text (truths in words, numbers in decimal, binary, octal and hexadecimal numbers in their base and in decimal, sizes in the largest unit that divides them and in full; for an array its first value and how many there are), cut to the size that is given, and a NUL; nothing behind that size is written, and the length of the text is returned. The text of a value, given as an argument of the same type, is read as this value.",
  "every type, every value it can hold, every buffer of at least two octets and what it held before", "ranges are large, and what is left behind in the buffer depends on what was there before", [A("libmy/argv.c", "argv_value_string", "value_to_string", "expand_buf"), A("libmy/argv_loc.h", "SPECIAL_CHARS")])
p("C117", "Settings in GLOBAL_ARGV are applied once, word by word",
  "The words of the variable GLOBAL_ARGV (separated by spaces, tabs, commas, colons) change the settings of the routines for command lines in their order, each of the documented words exactly what it names and any other word nothing; the first call reads its command line with these settings, and later calls do not read the variable again.",
  "every text of the variable, every settings of the program, every command line", "the variable can hold any text", [A("libmy/argv.c", "process_env", "argv_process"), A("libmy/argv_loc.h", "GLOBAL_NAME", "GLOBAL_CLOSE")])
p("C118", "Whether a long option was used can be asked by its name",
  "Asked for a long name, the answer is whether the option with this name was used.",
  "every array of options, every name", "arrays and names are unbounded", [A("libmy/argv.c", "argv_long_was_used", "argv_was_used")])
p("C119", "What was stored for a command line can be given back",
  "After a command line has been processed, argv_cleanup gives back exactly the strings that the processing has stored in the variables, each once; it frees no pointer of the program's own, empties the arrays, and leaves every other variable alone.",
  "every array of options, every values of the variables before, every command line, argument files and environment included", "arrays, command lines and defaults are unbounded; whether a pointer may be freed depends on the whole history of the processing", [A("libmy/argv.c", "argv_cleanup", "string_to_value", "do_arg", "argv_process")])
p("C120", "A text identifies what it was made from",
  "Two packets that are written as the same text by wdns_message_to_str have the same id, operation code, response code, flags, EDNS parameters and EDNS options, and in every section the same records (owner, class, type, TTL, rdata) in the same order; likewise for wdns_rrset_array_to_str and wdns_rr_to_str. So records logged as text can be compared as text.",
  "every two packets that are parsed, of any number of records", "it is a claim about pairs of packets of unbounded size: a collision of two texts cannot be excluded by trying some", [A("wdns/message_to_str.c", "wdns_message_to_str"), A("wdns/rr_to_str.c", "wdns_rr_to_str"), A("wdns/rrset_array_to_str.c", "wdns_rrset_array_to_str"), A("wdns/rdata_to_str.c", "_wdns_rdata_to_ubuf")])
p("C121", "The usage messages name every option",
  "argv_usage and --usage write, in the order of the array, every option and argument with its value, long name and comment: in the short message once each, in the long one a line each, with the comments in one column; no line is longer than 79 columns.",
  "every array of options, with any labels, names and comments, and every program name", "the arrays and texts are unbounded, and the columns are counted by hand in the code", [A("libmy/argv.c", "argv_usage", "do_usage", "usage_short", "usage_long", "display_arg", "display_option")])
p("C122", "The variables can be displayed, and every documented word does what it says",
  "--argv-display writes a line for every option with its type and the value of its variable; --usage, --usage-short, --usage-long, --usage-all, --help and --version write their message.",
  "every array of options and all values of the variables", "values and arrays are unbounded; a word may be shadowed by another one for all inputs", [A("libmy/argv.c", "display_variables", "do_list", "value_to_string")])
p("C123", "A command line that is refused is explained",
  "argv_process writes to argv_error_stream if and only if it refuses the line; what it writes in front of the usage message is true: every option it calls unknown, ambiguous, given twice or exclusive is, the options and values it says are missing are exactly those that are missing, and the group it says nothing was given of is one; every unknown option is named; and an array that is refused is refused for the reason that is written.",
  "every array of options, every command line, environment, argument files and settings", "lines, arrays and the nesting of argument files are unbounded; the messages come from fifteen places in the code", [A("libmy/argv.c", "argv_process", "do_list", "do_arg", "check_or", "check_xor", "check_mand", "check_opt", "file_args", "preprocess_array", "string_to_value")])
p("C124", "The functions on names fit together",
  "For all names: wdns_is_subdomain accepts a name and any name obtained from it by wdns_left_chop, and is the prefix relation on the names that wdns_reverse_name gives; it does not see the case of letters; wdns_downcase_name commutes with wdns_reverse_name, and the text of a lowered name is the lowered text of the name.",
  "all valid uncompressed names and pairs of them", "names are arbitrary sequences of labels; each law relates two functions that are tested separately", [A("wdns/is_subdomain.c", "wdns_is_subdomain"), A("wdns/left_chop.c", "wdns_left_chop"), A("wdns/reverse_name.c", "wdns_reverse_name"), A("wdns/downcase_name.c", "wdns_downcase_name"), A("wdns/domain_to_str.c", "wdns_domain_to_str")])
p("C125", "Version numbers",
  "wdns_get_version_number is the number the header defines, numbers of later versions are greater as long as minor version and patch level are below their limits, the three parts can be read back from the number, and the text of the version is that of its three parts.",
  "all triples of version parts below their limits", "the parts change with each release", [A("wdns/version.c", "wdns_get_version", "wdns_get_version_number"), A("wdns/wdns.h.in", "WDNS_LIBRARY_VERSION_NUMBER"), A("configure.ac", "AC_INIT")])
p("C126", "In its default mode argv_process returns only with a line that is accepted",
  "With argv_interactive set (the default): if argv_process returns, the line was accepted, nothing was written and the variables are those of the mode that returns an error; if the program is ended, then with 0 after the answer to an argument that asks for help, the version or the variables, or with argv_error_code after a true explanation; a line that is accepted and asks for nothing is processed as in the other mode; a line that asks is never processed; and text goes to standard error unless another stream was chosen.",
  "every array of options, command line, environment, argument files, settings, and first or later call", "lines, arrays and the nesting of argument files are unbounded, and exit is called from fourteen places", [A("libmy/argv.c", "argv_process", "argv_process_no_env", "argv_startup", "do_list", "file_args", "preprocess_array", "do_usage"), A("libmy/argv_loc.h", "ERROR_STREAM_INIT")])
p("C127", "Any octets have a name text",
  "wdns_domain_to_str bears any octets, not only well-formed names: it shows each label, escaped and followed by a dot, up to a zero octet or the end of the octets; for at most 255 octets the text fits a buffer of WDNS_PRESLEN_NAME; it returns the number of octets it has read and reads no others.",
  "every sequence of octets, every length, every buffer size", "the octets of a name object come from the caller and are not checked by the function; labels of all lengths, cut off anywhere", [A("wdns/domain_to_str.c", "wdns_domain_to_str")])
p("C128", "Packets cut short, and packets with something appended",
  "If a packet is accepted and so are its first octets up to some place, the shorter one gives the same identifier and flags, in every section its records are the first records of the longer one in the same order, and if it has an OPT record, EDNS parameters and response code are the same: cutting a packet loses records at the end and never shows one that was not there. A packet that is accepted with nothing readable behind it and has all the records that its header announces is parsed to the same message whatever is appended to it.",
  "every packet, every place to cut it, everything appended, every memory behind both", "a cut can be anywhere: in a name, in an rdata, in the SvcParams, and names may be completed by what lies behind", [A("wdns/parse_message.c", "wdns_parse_message"), A("wdns/parse_message_rr.c", "_wdns_parse_message_rr"), A("wdns/parse_rdata.c", "_wdns_parse_rdata")])
p("C129", "RRsets do not depend on the order of records",
  "If a section (answer, authority or additional) has the same records in two accepted packets, in whatever order, then the sections have equally many RRsets, and to every RRset of the one there is an RRset of the other with the same type, class and TTL, the same owner name up to the case of letters and the same rdatas up to their order; if the owner name is spelled alike in its records, both are serialized to the same octets after wdns_sort_rrset. So shuffled answers are stored alike.",
  "every two packets, every memory behind them, every order of the records, every sorting algorithm of qsort", "the number of orders grows as a factorial, and the code inserts records one by one", [A("wdns/parse_message.c", "wdns_parse_message"), A("wdns/insert_rr_rrset_array.c", "_wdns_insert_rr_rrset_array"), A("wdns/sort_rrset.c", "wdns_sort_rrset")])
p("C130", "Whatever a program does, blocks and objects correspond",
  "Take any program that parses messages, deserializes RRsets, converts texts to names and rdata, renders names, rdata, records and messages, clears messages and RRsets (also those of failed calls, also twice) and frees the blocks handed to it, in any order and any number of times. At every moment the live blocks are exactly the blocks of the objects that it holds, each belonging to one object only; any object can then be given back, which succeeds and releases its own blocks and no others; once all are given back nothing is allocated; and what a call gives does not depend on the history.",
  "every sequence of calls of every length, every input of each, every order of releases, every numbering of blocks by the allocator", "the number of histories is unbounded; a test runs a few of them", [A("wdns/parse_message.c", "wdns_parse_message"), A("wdns/deserialize_rrset.c", "wdns_deserialize_rrset"), A("wdns/clear.c", "wdns_clear_message"), A("wdns/clear.c", "wdns_clear_rrset"), A("wdns/str_to_name.c", "wdns_str_to_name"), A("wdns/rdata_to_str.c", "wdns_str_to_rdata")])
p("C131", "Spelling and order do not matter for what is stored",
  "Take two accepted packets and a section (answer, authority or additional) whose records are the same in both, up to their order and up to the case of letters in names, in owner names as well as inside rdata of the types whose names are lower-cased. Then to every RRset of the one there is an RRset of the other with the same type, class and TTL, the same owner name up to case and the same rdatas up to order and case; and wdns_downcase_rrset succeeds on both, after which wdns_sort_rrset and wdns_serialize_rrset give the same octets. So an answer whose case was randomized is stored like any other. (Names with a zero octet in a label and A6 rdata are excepted: they are not lower-cased, C59.)",
  "every two packets, every memory behind them, every spelling and order of the records, every sorting algorithm of qsort", "the number of spellings and orders is exponential", [A("wdns/parse_message.c", "wdns_parse_message"), A("wdns/insert_rr_rrset_array.c", "_wdns_insert_rr_rrset_array"), A("wdns/downcase_rrset.c", "wdns_downcase_rrset"), A("wdns/downcase_rdata.c", "wdns_downcase_rdata"), A("wdns/sort_rrset.c", "wdns_sort_rrset")])
p("C132", "A stored RRset that is fetched is the one that was parsed",
  "Take any RRset of the answer, authority or additional section of any parsed message (with fewer than 65536 octets in each rdata, C39; all packets of at most 65305 octets without overlong SvcParams are such). Serialized, and deserialized from a buffer that holds the octets and whatever follows, it is the same in every field and every octet of its blocks, so that every function (text, lower-casing, sorting, comparing, serializing again) gives the same for it; and different RRsets, of one message or two, are never serialized to the same octets.",
  "every packet, every memory behind it, every RRset of it, every pair of them, both byte orders, everything behind the stored octets", "packets and RRsets are unboundedly many, and pairs of them more so", [A("wdns/parse_message.c", "wdns_parse_message"), A("wdns/serialize_rrset.c", "wdns_serialize_rrset"), A("wdns/deserialize_rrset.c", "wdns_deserialize_rrset")])
out = os.path.join(os.path.dirname(__file__), "..", "properties.jsonl")
with open(out, "w") as f:
    for x in P:
        f.write(json.dumps(x) + "\n")
print(len(P))
