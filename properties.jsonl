{"id": "C01", "title": "Unpacked names are well-formed", "statement": "Whenever wdns_unpack_name returns success, the bytes it stored in dst are exactly the wire form of a domain name: labels of 1..63 octets each preceded by its length, one terminating zero octet, at most 255 octets in total, and *sz is that total length.", "quantifier": "every message buffer, every start offset", "why_tests_cant": "the set of messages (arbitrary bytes, arbitrary pointer graphs) is unbounded; tests sample a few packets", "anchors": [{"file": "wdns/unpack_name.c", "symbols": ["wdns_unpack_name"]}]}
{"id": "C02", "title": "Decompression is exactly RFC 1035 decompression", "statement": "wdns_unpack_name succeeds on a name if and only if the labels and (strictly backward) compression pointers starting at src denote a domain name of at most 255 octets, and then it returns exactly that name; otherwise the result code names the first fault that is met.", "quantifier": "every message buffer, every start offset, every chain of labels and pointers", "why_tests_cant": "needs every pointer graph, including chains that re-enter the middle of other names", "anchors": [{"file": "wdns/unpack_name.c", "symbols": ["wdns_unpack_name"]}]}
{"id": "C03", "title": "Decompression always terminates", "statement": "wdns_unpack_name returns after a bounded number of loop iterations on every input, including messages whose compression pointers form cycles.", "quantifier": "every message buffer, every start offset", "why_tests_cant": "non-termination on a single crafted pointer loop is a denial of service; a test that passes shows nothing about other loops", "anchors": [{"file": "wdns/unpack_name.c", "symbols": ["wdns_unpack_name"]}]}
{"id": "C04", "title": "Decompression is memory safe", "statement": "wdns_unpack_name writes at most WDNS_MAXLEN_NAME (255) bytes to dst, on success and on failure, and reads only bytes of the message [p, eop).", "quantifier": "every message buffer, every start offset", "why_tests_cant": "an out-of-bounds access of one byte is invisible to functional tests", "anchors": [{"file": "wdns/unpack_name.c", "symbols": ["wdns_unpack_name"]}]}
{"id": "C05", "title": "Forward and self compression pointers are rejected", "statement": "If wdns_unpack_name encounters a compression pointer whose target is not strictly before the pointer itself, it returns wdns_res_invalid_compression_pointer.", "quantifier": "every message buffer, every pointer position and target", "why_tests_cant": "all pointer positions and targets", "anchors": [{"file": "wdns/unpack_name.c", "symbols": ["wdns_unpack_name"]}]}
{"id": "C06", "title": "Uncompressed names are copied verbatim", "statement": "For every well-formed name stored uncompressed inside a message, wdns_unpack_name and wdns_copy_uname both succeed and return the name octet for octet; wdns_copy_uname rejects every name that contains a compression pointer, and whenever wdns_copy_uname succeeds wdns_unpack_name gives the same result.", "quantifier": "every well-formed name, every message that contains it, every offset", "why_tests_cant": "all names up to 255 octets and all surrounding contexts", "anchors": [{"file": "wdns/copy_uname.c", "symbols": ["wdns_copy_uname"]}, {"file": "wdns/unpack_name.c", "symbols": ["wdns_unpack_name"]}]}
{"id": "C07", "title": "Skipping a name stays in the buffer", "statement": "wdns_skip_name never moves the cursor past the end of the buffer, never moves it backwards, and returns exactly the distance moved.", "quantifier": "every buffer, every start offset, well-formed or not", "why_tests_cant": "all byte sequences, including truncated and malformed names", "anchors": [{"file": "wdns/skip_name.c", "symbols": ["wdns_skip_name"]}]}
{"id": "C08", "title": "Skipping agrees with decoding", "statement": "For every name that wdns_unpack_name accepts within the buffer, wdns_skip_name advances exactly over the octets of the (possibly compressed) encoding: to one past the terminating zero octet or one past the first compression pointer.", "quantifier": "every message buffer and every offset at which a name lies", "why_tests_cant": "two independent walkers of the same bytes must agree on every input, otherwise every later field of the record is misread", "anchors": [{"file": "wdns/skip_name.c", "symbols": ["wdns_skip_name"]}, {"file": "wdns/unpack_name.c", "symbols": ["wdns_unpack_name"]}]}
{"id": "C09", "title": "Length of an uncompressed name", "statement": "wdns_len_uname succeeds exactly when the buffer starts with a complete well-formed uncompressed name and then reports its exact length, which never exceeds the buffer or 255.", "quantifier": "every buffer", "why_tests_cant": "all byte sequences including unterminated names", "anchors": [{"file": "wdns/len_uname.c", "symbols": ["wdns_len_uname"]}]}
{"id": "C10", "title": "Label counting", "statement": "wdns_count_labels on a well-formed name succeeds and reports the number of labels.", "quantifier": "every well-formed name", "why_tests_cant": "all names", "anchors": [{"file": "wdns/count_labels.c", "symbols": ["wdns_count_labels"]}]}
{"id": "C11", "title": "Chopping removes exactly the leftmost label", "statement": "wdns_left_chop on a well-formed non-root name yields the well-formed name without its first label, on the root yields the root; applying it count_labels times reaches the root.", "quantifier": "every well-formed name", "why_tests_cant": "all names and all iteration counts", "anchors": [{"file": "wdns/left_chop.c", "symbols": ["wdns_left_chop"]}]}
{"id": "C12", "title": "Subdomain test is proper label-suffix", "statement": "For well-formed names wdns_is_subdomain succeeds and reports true exactly when n1's label sequence is a proper suffix of n0's; hence it is irreflexive, asymmetric and transitive, and every non-root name is a subdomain of the root.", "quantifier": "every pair (triple) of well-formed names", "why_tests_cant": "all pairs of names; algebraic laws over triples", "anchors": [{"file": "wdns/is_subdomain.c", "symbols": ["wdns_is_subdomain", "gen_label_offsets", "compare_label"]}]}
{"id": "C13", "title": "Name reversal", "statement": "wdns_reverse_name on a well-formed name produces the well-formed name with the labels in reverse order, using exactly the bytes of the caller's buffer; applying it twice gives the original name.", "quantifier": "every well-formed name", "why_tests_cant": "all names", "anchors": [{"file": "wdns/reverse_name.c", "symbols": ["wdns_reverse_name"]}]}
{"id": "C14", "title": "Name downcasing", "statement": "wdns_downcase_name changes only ASCII A-Z octets, to a-z, keeps the length and the label structure, is idempotent, and two names become equal exactly when they are equal ignoring ASCII case.", "quantifier": "every name buffer", "why_tests_cant": "all byte strings", "anchors": [{"file": "wdns/downcase_name.c", "symbols": ["wdns_downcase_name"]}]}
{"id": "C15", "title": "Name text round trip", "statement": "For every well-formed name, converting to presentation form with wdns_domain_to_str and back with wdns_str_to_name_case gives the identical wire name, and with wdns_str_to_name the lower-cased wire name.", "quantifier": "every well-formed name, any octet values in the labels", "why_tests_cant": "all octet values and label shapes, including escapes of dots, backslashes and non-printables", "anchors": [{"file": "wdns/domain_to_str.c", "symbols": ["wdns_domain_to_str"]}, {"file": "wdns/str_to_name.c", "symbols": ["wdns_str_to_name_case", "wdns_str_to_name"]}]}
{"id": "C16", "title": "Name text is safe and bounded", "statement": "For every well-formed name wdns_domain_to_str reads exactly the name, returns its length, writes at most WDNS_PRESLEN_NAME (1025) bytes including the terminating NUL, and the text consists of printable non-space ASCII only; different names give different texts.", "quantifier": "every well-formed name", "why_tests_cant": "worst case expansion over all 255 octet names", "anchors": [{"file": "wdns/domain_to_str.c", "symbols": ["wdns_domain_to_str"]}]}
{"id": "C17", "title": "Parsed names are well-formed", "statement": "Whenever wdns_str_to_name or wdns_str_to_name_case succeeds the result is a well-formed wire name: labels of 1..63 octets, one terminating zero, at most 255 octets.", "quantifier": "every NUL-terminated string", "why_tests_cant": "all strings, all label lengths", "anchors": [{"file": "wdns/str_to_name.c", "symbols": ["_wdns_str_to_name"]}]}
{"id": "C18", "title": "Name parsing is memory safe", "statement": "wdns_str_to_name never writes outside the 255 byte name buffer it allocates and never reads beyond the terminating NUL of its argument.", "quantifier": "every NUL-terminated string", "why_tests_cant": "all strings, including ones ending in the middle of an escape", "anchors": [{"file": "wdns/str_to_name.c", "symbols": ["_wdns_str_to_name"]}]}
{"id": "C19", "title": "Lower-casing parse is parse then lower-case", "statement": "wdns_str_to_name(s) gives the same result as wdns_str_to_name_case(s) followed by wdns_downcase_name.", "quantifier": "every NUL-terminated string", "why_tests_cant": "all strings, including escaped upper-case letters", "anchors": [{"file": "wdns/str_to_name.c", "symbols": ["wdns_str_to_name", "wdns_str_to_name_case"]}, {"file": "wdns/downcase_name.c", "symbols": ["wdns_downcase_name"]}]}
{"id": "C20", "title": "Trailing dot is optional; empty labels are rejected", "statement": "For plain text (no backslash, not ending in a dot, non-empty) wdns_str_to_name gives the same result with and without a trailing dot (up to the reported overflow at the 255 octet limit); text with two consecutive dots or a leading dot followed by more text is rejected with wdns_res_parse_error or wdns_res_name_overflow.", "quantifier": "every such string", "why_tests_cant": "all strings", "anchors": [{"file": "wdns/str_to_name.c", "symbols": ["_wdns_str_to_name"]}]}
{"id": "C21", "title": "RR / RRset matching", "statement": "wdns_compare_rr_rrset is true exactly when type and class are equal and the owner names are equal ignoring ASCII case.", "quantifier": "every RR and RRset", "why_tests_cant": "all names, types and classes", "anchors": [{"file": "wdns/compare_rr_rrset.c", "symbols": ["wdns_compare_rr_rrset"]}]}
{"id": "C22", "title": "RRset sorting is canonical", "statement": "wdns_sort_rrset permutes the rdatas into the order by length then bytes; the outcome depends only on the multiset of rdatas, so any two RRsets with the same rdatas sort to the same sequence whatever algorithm qsort uses; sorting is idempotent.", "quantifier": "every RRset, every conforming qsort", "why_tests_cant": "all sequences and every sorting algorithm", "anchors": [{"file": "wdns/sort_rrset.c", "symbols": ["wdns_sort_rrset", "rdata_cmp"]}]}
{"id": "C23", "title": "Serialization round trip", "statement": "wdns_deserialize_rrset applied to the output of wdns_serialize_rrset (followed by any further bytes) succeeds and yields an RRset equal in every field, on the same byte order.", "quantifier": "every RRset, every trailing data, both byte orders", "why_tests_cant": "all RRsets up to 65535 rdatas of up to 65535 bytes", "anchors": [{"file": "wdns/serialize_rrset.c", "symbols": ["wdns_serialize_rrset"]}, {"file": "wdns/deserialize_rrset.c", "symbols": ["wdns_deserialize_rrset"]}]}
{"id": "C24", "title": "Serialized size is exact", "statement": "The size reported by wdns_serialize_rrset is exactly the number of bytes it writes.", "quantifier": "every RRset", "why_tests_cant": "a one byte mismatch is a heap overflow in every caller; must hold for all shapes", "anchors": [{"file": "wdns/serialize_rrset.c", "symbols": ["wdns_serialize_rrset"]}]}
{"id": "C25", "title": "Deserialization is safe on arbitrary bytes", "statement": "wdns_deserialize_rrset on any byte string reads only the given sz bytes, either succeeds or returns wdns_res_overflow; every strict prefix of the consumed bytes is rejected with wdns_res_overflow, and re-serializing a success gives back exactly the consumed bytes.", "quantifier": "every byte string and length", "why_tests_cant": "all malformed and truncated inputs", "anchors": [{"file": "wdns/deserialize_rrset.c", "symbols": ["wdns_deserialize_rrset"]}]}
{"id": "C26", "title": "RRset grouping", "statement": "After parsing, in each of the answer, authority and additional sections every RR's rdata appears in exactly one RRset with the same type, class and (case-insensitively) owner name, no two RRsets of a section share type, class and owner name, no RRset is empty, and within an RRset the rdatas keep the order of the RRs.", "quantifier": "every sequence of RRs", "why_tests_cant": "all arrival orders and interleavings of owners", "anchors": [{"file": "wdns/insert_rr_rrset_array.c", "symbols": ["_wdns_insert_rr_rrset_array"]}]}
{"id": "C27", "title": "RRset TTL is the minimum", "statement": "The TTL of each RRset in a parsed section is the minimum of the TTLs of the RRs grouped into it.", "quantifier": "every sequence of RRs", "why_tests_cant": "all sequences", "anchors": [{"file": "wdns/insert_rr_rrset_array.c", "symbols": ["_wdns_insert_rr_rrset_array"]}]}
{"id": "C28", "title": "Question section keeps one entry per question", "statement": "Inserting questions never merges them: the question section has as many RRsets as RRs, in the same order, with the same owner names, types and classes and no rdata.", "quantifier": "every sequence of questions", "why_tests_cant": "all sequences", "anchors": [{"file": "wdns/insert_rr_rrset_array.c", "symbols": ["_wdns_insert_rr_rrset_array"]}]}
{"id": "C29", "title": "Header decoding", "statement": "For every packet of at least 12 bytes that parses, id and flags are the big-endian header fields, the flag macros recover the individual header bits, and without EDNS rcode is the low 4 bits of flags; shorter packets are rejected with wdns_res_len.", "quantifier": "every packet", "why_tests_cant": "all 2^32 header words and all packets", "anchors": [{"file": "wdns/parse_message.c", "symbols": ["wdns_parse_message"]}, {"file": "wdns/wdns.h.in", "symbols": ["WDNS_FLAGS_QR", "WDNS_FLAGS_OPCODE"]}]}
{"id": "C30", "title": "Section counts are bounded by the header", "statement": "In every parsed message the number of RRs in a section is at most the count in the header, and the total number of RRs (plus one if EDNS is present) is at most the sum of the header counts.", "quantifier": "every packet", "why_tests_cant": "all packets, including ones whose counts lie", "anchors": [{"file": "wdns/parse_message.c", "symbols": ["wdns_parse_message"]}]}
{"id": "C31", "title": "Names in parsed messages are well-formed", "statement": "Every owner name of every RR and RRset in a successfully parsed message is a well-formed, uncompressed wire name.", "quantifier": "every packet", "why_tests_cant": "all packets", "anchors": [{"file": "wdns/parse_message.c", "symbols": ["wdns_parse_message"]}, {"file": "wdns/parse_message_rr.c", "symbols": ["_wdns_parse_message_rr"]}]}
{"id": "C32", "title": "EDNS decoding", "statement": "The first OPT record of a message sets edns.present, edns.size (class), edns.version (TTL bits 16-23), edns.flags (TTL bits 0-15) and edns.options (rdata), and is not listed in any section; later OPT records are kept as ordinary records; without OPT record edns.present is false and all other EDNS fields are zero.", "quantifier": "every packet", "why_tests_cant": "all packets and all positions and multiplicities of OPT records", "anchors": [{"file": "wdns/parse_edns.c", "symbols": ["_wdns_parse_edns"]}, {"file": "wdns/parse_message.c", "symbols": ["wdns_parse_message"]}]}
{"id": "C33", "title": "Extended RCODE", "statement": "For a message with an OPT record, rcode is the 12-bit extended RCODE of RFC 6891: the OPT TTL's top byte as upper 8 bits and the header's RCODE as lower 4 bits.", "quantifier": "every packet with an OPT record", "why_tests_cant": "all combinations of header and OPT TTL", "anchors": [{"file": "wdns/parse_edns.c", "symbols": ["_wdns_parse_edns"]}, {"file": "wdns/wdns.h.in", "symbols": ["WDNS_R_BADVERS"]}]}
{"id": "C34", "title": "Message parsing terminates", "statement": "wdns_parse_message returns on every packet.", "quantifier": "every packet", "why_tests_cant": "one crafted packet that loops forever is a denial of service", "anchors": [{"file": "wdns/parse_message.c", "symbols": ["wdns_parse_message"]}, {"file": "wdns/parse_rdata.c", "symbols": ["_wdns_parse_rdata"]}]}
{"id": "C35", "title": "Message parsing is memory safe", "statement": "wdns_parse_message reads only the len bytes of the packet, and its result depends only on them.", "quantifier": "every packet", "why_tests_cant": "out-of-bounds reads are invisible to functional tests", "anchors": [{"file": "wdns/parse_message.c", "symbols": ["wdns_parse_message"]}, {"file": "wdns/unpack_name.c", "symbols": ["wdns_unpack_name"]}, {"file": "wdns/skip_name.c", "symbols": ["wdns_skip_name"]}]}
{"id": "C36", "title": "Failed parses leave nothing behind", "statement": "When wdns_parse_message fails, every block it allocated has been freed and the message object is empty; when it succeeds, the live blocks are exactly those reachable from the message.", "quantifier": "every packet, every point of failure", "why_tests_cant": "every error path at every record", "anchors": [{"file": "wdns/parse_message.c", "symbols": ["wdns_parse_message"]}, {"file": "wdns/clear.c", "symbols": ["wdns_clear_message"]}, {"file": "wdns/insert_rr_rrset_array.c", "symbols": ["_wdns_insert_rr_rrset_array"]}]}
{"id": "C37", "title": "Clearing frees everything exactly once", "statement": "wdns_clear_message on a message built by the parser frees every block reachable from it exactly once (no leak, no double free) and clearing again is harmless.", "quantifier": "every message built by the parser", "why_tests_cant": "all shapes of messages", "anchors": [{"file": "wdns/clear.c", "symbols": ["wdns_clear_message", "wdns_clear_rrset", "wdns_clear_rr", "wdns_clear_rrset_array"]}]}
{"id": "C38", "title": "Uncompressed rdata is stored verbatim", "statement": "If the names embedded in an accepted rdata are not compressed, the stored rdata equals the wire rdata byte for byte; in particular parsing is idempotent: parsing a stored rdata again gives the same rdata.", "quantifier": "every record type, class and rdata", "why_tests_cant": "all types and all rdata", "anchors": [{"file": "wdns/parse_rdata.c", "symbols": ["_wdns_parse_rdata"]}, {"file": "wdns/record_descr.c", "symbols": ["record_descr_array"]}]}
{"id": "C39", "title": "Stored rdata length", "statement": "The length field of a stored rdata is the number of bytes of the decompressed rdata (it never silently wraps).", "quantifier": "every record", "why_tests_cant": "needs records near the 65535 byte limit with compression", "anchors": [{"file": "wdns/parse_rdata.c", "symbols": ["_wdns_parse_rdata"]}]}
{"id": "C40", "title": "Known rdata is checked against its schema", "statement": "For record types with a known layout, a successfully parsed rdata is the concatenation of fields conforming to that layout (possibly truncated at a field boundary), consuming exactly rdlen bytes.", "quantifier": "every record type, class and rdata", "why_tests_cant": "all types and all byte strings", "anchors": [{"file": "wdns/parse_rdata.c", "symbols": ["_wdns_parse_rdata"]}, {"file": "wdns/record_descr.c", "symbols": ["record_descr_array"]}]}
{"id": "C41", "title": "Unknown types are opaque", "statement": "For every record type without a known layout, and for class-specific types in another class, any rdata is accepted and stored byte for byte.", "quantifier": "every unknown type, every rdata", "why_tests_cant": "65536 types times all rdata", "anchors": [{"file": "wdns/parse_rdata.c", "symbols": ["_wdns_parse_rdata"]}]}
{"id": "C42", "title": "Accepted rdata renders without error marker", "statement": "For every rdata accepted by the parser (other than OPT), wdns_rdata_to_str produces a text without the '### PARSE ERROR' marker and without touching memory outside the rdata.", "quantifier": "every record type, class and accepted rdata", "why_tests_cant": "all types and all rdata", "anchors": [{"file": "wdns/rdata_to_ubuf.c", "symbols": ["_wdns_rdata_to_ubuf"]}, {"file": "wdns/parse_rdata.c", "symbols": ["_wdns_parse_rdata"]}]}
{"id": "C43", "title": "Rendered text is printable", "statement": "The text produced by wdns_rdata_to_str contains only printable ASCII (and newlines between EDNS options), never a NUL or control byte, for every rdata on which it does not access memory out of bounds.", "quantifier": "every type, class and rdata", "why_tests_cant": "terminal-injection safety must hold for every byte sequence", "anchors": [{"file": "wdns/rdata_to_ubuf.c", "symbols": ["_wdns_rdata_to_ubuf"]}]}
{"id": "C44", "title": "Rdata text round trip", "statement": "wdns_str_to_rdata(wdns_rdata_to_str(rdata)) = rdata for every rdata accepted by the parser.", "quantifier": "every record type, class and accepted rdata", "why_tests_cant": "all types and all rdata; printer and scanner are independent code", "anchors": [{"file": "wdns/rdata_to_ubuf.c", "symbols": ["_wdns_rdata_to_ubuf"]}, {"file": "wdns/str_to_rdata_ubuf.c", "symbols": ["_wdns_str_to_rdata_ubuf"]}, {"file": "wdns/rdata_to_str.c", "symbols": ["wdns_rdata_to_str", "wdns_str_to_rdata"]}]}
{"id": "C45", "title": "Failed rdata scans leave the buffer untouched", "statement": "When scanning an rdata text fails the output buffer is restored to its previous contents; when it succeeds the previous contents are kept as a prefix.", "quantifier": "every text, type and class", "why_tests_cant": "every error path", "anchors": [{"file": "wdns/str_to_rdata_ubuf.c", "symbols": ["_wdns_str_to_rdata_ubuf"]}]}
{"id": "C46", "title": "Generic rdata round trip", "statement": "For every record type without a known layout, the RFC 3597 text produced by wdns_rdata_to_str is scanned back by wdns_str_to_rdata to the identical bytes.", "quantifier": "every unknown type, every rdata up to 65535 bytes", "why_tests_cant": "all types and rdata", "anchors": [{"file": "wdns/rdata_to_ubuf.c", "symbols": ["_wdns_rdata_to_ubuf"]}, {"file": "wdns/str_to_rdata_ubuf.c", "symbols": ["_wdns_str_to_rdata_ubuf"]}]}
{"id": "C47", "title": "Record type names", "statement": "wdns_str_to_rrtype inverts wdns_rrtype_to_str for every named type, ignoring letter case, and maps TYPE<n> to n for every n in 0..65535; type names are pairwise distinct.", "quantifier": "all 65536 types, all letter cases", "why_tests_cant": "binary search over a generated table whose order depends on a Python sort", "anchors": [{"file": "wdns/gen_rrtype_to_str", "symbols": ["wdns_rrtype_to_str", "wdns_str_to_rrtype"]}]}
{"id": "C48", "title": "Record class names", "statement": "wdns_str_to_rrclass inverts wdns_rrclass_to_str for every named class, ignoring letter case, and maps CLASS<n> to n for every n in 0..65535.", "quantifier": "all 65536 classes, all letter cases", "why_tests_cant": "as C47", "anchors": [{"file": "wdns/gen_rrclass_to_str", "symbols": ["wdns_rrclass_to_str", "wdns_str_to_rrclass"]}]}
{"id": "C49", "title": "Rcode names", "statement": "wdns_str_to_rcode inverts wdns_rcode_to_str for every named rcode ignoring letter case, and fails on every string that is not an rcode name.", "quantifier": "all rcodes and all strings", "why_tests_cant": "all strings", "anchors": [{"file": "wdns/gen_rcode_to_str", "symbols": ["wdns_rcode_to_str", "wdns_str_to_rcode"]}]}
{"id": "C50", "title": "SvcParam key names", "statement": "For every SvcParamKey except the reserved 65535, scanning the printed key name gives the key back.", "quantifier": "all 65535 keys", "why_tests_cant": "all keys", "anchors": [{"file": "wdns/svcparamkeys_to_str.c", "symbols": ["_wdns_svcparamkey_to_str", "_wdns_str_to_svcparamkey"]}]}
{"id": "C51", "title": "Base64 round trip", "statement": "Base64 decoding inverts base64 encoding, and encoding n bytes yields 4*ceil(n/3) characters of the standard alphabet.", "quantifier": "every byte string", "why_tests_cant": "all byte strings", "anchors": [{"file": "libmy/b64_encode.c", "symbols": ["base64_encode_block", "base64_encode_blockend"]}, {"file": "libmy/b64_decode.c", "symbols": ["base64_decode_block"]}]}
{"id": "C52", "title": "Base32hex round trip", "statement": "Unpadded base32hex decoding inverts encoding, in either letter case, and the encoder never exceeds the buffer the renderer gives it.", "quantifier": "every byte string", "why_tests_cant": "all byte strings", "anchors": [{"file": "libmy/b32_encode.c", "symbols": ["base32_encode"]}, {"file": "libmy/b32_decode.c", "symbols": ["base32_decode"]}]}
{"id": "C53", "title": "Hex formatting", "statement": "Hex formatting of a byte yields two hex digits of the requested case that scan back to the byte.", "quantifier": "all bytes, both cases, all buffer sizes", "why_tests_cant": "all byte strings and buffer sizes", "anchors": [{"file": "libmy/my_format.c", "symbols": ["my_bytes_to_hex_str"]}]}
{"id": "C54", "title": "Decimal formatting", "statement": "my_uint64_to_str yields the decimal representation of the number when the buffer is large enough (as for every caller in the library), and never writes outside the buffer.", "quantifier": "all 64-bit numbers and buffer sizes", "why_tests_cant": "all numbers", "anchors": [{"file": "libmy/my_format.c", "symbols": ["my_uint64_to_str"]}]}
{"id": "C55", "title": "IPv4 text", "statement": "fast_inet4_ntop yields the dotted quad of the four octets without leading zeros, in at most 15 characters, and scanning it gives the address back.", "quantifier": "all 2^32 addresses", "why_tests_cant": "all addresses", "anchors": [{"file": "libmy/fast_inet_ntop.c", "symbols": ["fast_inet4_ntop"]}]}
{"id": "C56", "title": "IPv6 text", "statement": "fast_inet6_ntop yields a text of at most 45 characters from which inet_pton recovers the address; hence it is injective.", "quantifier": "all 2^128 addresses", "why_tests_cant": "all addresses", "anchors": [{"file": "libmy/fast_inet_ntop.c", "symbols": ["fast_inet6_ntop", "print_hex_uint16_t"]}]}
{"id": "C57", "title": "Growable buffer", "statement": "Any sequence of operations on a ubuf/vector (init, add, append, reserve, clip, reset, detach, extend, advance within reserved space) behaves like the same operations on a plain sequence and never writes outside the allocated storage.", "quantifier": "every operation sequence", "why_tests_cant": "all histories", "anchors": [{"file": "libmy/vector.h", "symbols": ["VECTOR_GENERATE"]}, {"file": "libmy/ubuf.h", "symbols": ["ubuf_add_cstr", "ubuf_cterm", "ubuf_add_fmt"]}]}
{"id": "C58", "title": "Rdata downcasing changes letter case only", "statement": "wdns_downcase_rdata keeps the rdata length and changes only bytes in A-Z, to a-z; types outside the RFC 4034 6.2 list are untouched; on success it is idempotent.", "quantifier": "every type, class and rdata", "why_tests_cant": "all types and rdata", "anchors": [{"file": "wdns/downcase_rdata.c", "symbols": ["wdns_downcase_rdata"]}]}
{"id": "C59", "title": "Parsed rdata can be downcased", "statement": "wdns_downcase_rdata succeeds on every rdata accepted by the parser, lower-casing exactly its embedded names.", "quantifier": "every type, class and accepted rdata", "why_tests_cant": "all types and rdata", "anchors": [{"file": "wdns/downcase_rdata.c", "symbols": ["wdns_downcase_rdata"]}, {"file": "wdns/parse_rdata.c", "symbols": ["_wdns_parse_rdata"]}]}
{"id": "C60", "title": "Rdata downcasing is memory safe", "statement": "wdns_downcase_rdata accesses only the bytes of the rdata, for every rdata, well-formed or not.", "quantifier": "every type, class and rdata", "why_tests_cant": "all malformed rdata", "anchors": [{"file": "wdns/downcase_rdata.c", "symbols": ["wdns_downcase_rdata"]}]}
{"id": "C61", "title": "EDNS option rendering", "statement": "Rendering EDNS options is memory safe for every option rdata, and a client-subnet option renders its address padded with zero octets and both prefix lengths.", "quantifier": "every option rdata", "why_tests_cant": "all option lists", "anchors": [{"file": "wdns/edns_options.c", "symbols": ["_wdns_ednsoptdata_to_ubuf", "ip_to_ubuf"]}, {"file": "wdns/rdata_to_ubuf.c", "symbols": ["_wdns_rdata_to_ubuf"]}]}
{"id": "C62", "title": "Message rendering", "statement": "wdns_message_to_str of a parsed message is defined (no undefined behaviour) and lists each RR of each section exactly once, in order, after its section header.", "quantifier": "every parsed message", "why_tests_cant": "all messages", "anchors": [{"file": "wdns/message_to_str.c", "symbols": ["wdns_message_to_str"]}, {"file": "wdns/rr_to_ubuf.c", "symbols": ["_wdns_rr_to_ubuf"]}]}
{"id": "C63", "title": "Loading names from a file", "statement": "wdns_file_load_names calls the callback once per non-comment line, in order, with the lower-cased parsed name of that line, stopping at the first malformed line with its error; no memory outside the line buffer is accessed.", "quantifier": "every file contents", "why_tests_cant": "all file contents, including long lines and NUL bytes", "anchors": [{"file": "wdns/file_load_names.c", "symbols": ["wdns_file_load_names"]}]}
{"id": "C64", "title": "Rendering an RRset", "statement": "wdns_rrset_to_str of any RRset of a parsed message is defined (no undefined behaviour) and renders one line per rdata (one line for a question).", "quantifier": "every RRset in every parsed message, every section", "why_tests_cant": "all messages", "anchors": [{"file": "wdns/rrset_to_ubuf.c", "symbols": ["_wdns_rrset_to_ubuf"]}]}
{"id": "C65", "title": "Type bitmap construction", "statement": "Scanning a list of type names yields the canonical NSEC type bitmap of exactly that set of types (ascending windows, no empty window, no trailing zero octet), independent of order and duplicates.", "quantifier": "every list of types", "why_tests_cant": "all subsets of 65536 types in all orders", "anchors": [{"file": "wdns/str_to_rdata_ubuf.c", "symbols": ["_wdns_str_to_rdata_ubuf"]}, {"file": "wdns/rdata_to_ubuf.c", "symbols": ["_wdns_rdata_to_ubuf"]}]}
{"id": "C66", "title": "Result codes, opcodes", "statement": "wdns_res_to_str is defined and distinct for every result code; wdns_opcode_to_str is defined exactly for the five known opcodes and distinct on them.", "quantifier": "all result codes and all 65536 opcodes", "why_tests_cant": "finite but complete tables", "anchors": [{"file": "wdns/res_to_str.c", "symbols": ["wdns_res_to_str"]}, {"file": "wdns/opcode_to_str.c", "symbols": ["wdns_opcode_to_str"]}]}
{"id": "C67", "title": "A parsed message is exactly the records of the packet", "statement": "If a packet is a header followed by well-formed records, wdns_parse_message succeeds and the message holds exactly these records (header, EDNS, sections, RRsets); conversely, if it succeeds, the packet is a header followed by such records.", "quantifier": "every packet", "why_tests_cant": "all packets of all lengths", "anchors": [{"file": "wdns/parse_message.c", "symbols": ["wdns_parse_message"]}, {"file": "wdns/parse_message_rr.c", "symbols": ["_wdns_parse_message_rr"]}, {"file": "wdns/insert_rr_rrset_array.c", "symbols": ["_wdns_insert_rr_rrset_array"]}]}
{"id": "C68", "title": "Failed deserialization leaves nothing behind", "statement": "When wdns_deserialize_rrset fails, every block it allocated has been freed and the RRset object is empty; when it succeeds, exactly the blocks reachable from the RRset are new and wdns_clear_rrset releases each of them exactly once.", "quantifier": "every buffer, every point of failure", "why_tests_cant": "every error path at every rdata", "anchors": [{"file": "wdns/deserialize_rrset.c", "symbols": ["wdns_deserialize_rrset"]}, {"file": "wdns/clear.c", "symbols": ["wdns_clear_rrset"]}]}
{"id": "C69", "title": "Reading rdata text is defined for every text", "statement": "wdns_str_to_rdata returns with an rdata or an error on every NUL-terminated text, for every type and class, without reading outside the text, without using an uninitialised value and without looping forever.", "quantifier": "every text, type and class", "why_tests_cant": "arbitrary malformed text of any length for all 80 layouts", "anchors": [{"file": "wdns/str_to_rdata_ubuf.c", "symbols": ["_wdns_str_to_rdata_ubuf"]}, {"file": "wdns/rdata_to_str.c", "symbols": ["wdns_str_to_rdata"]}]}
{"id": "C70", "title": "The grammar of name texts", "statement": "wdns_str_to_name and wdns_str_to_name_case accept exactly the RFC 1035 texts (labels separated by single dots, optional final dot, escapes \\X and \\DDD up to 255) whose name fits in 255 octets, and return the wire form of that name; for any other text the first fault from the left decides between wdns_res_parse_error and wdns_res_name_overflow.", "quantifier": "every text", "why_tests_cant": "the grammar has infinitely many texts; both acceptance and rejection are claimed", "anchors": [{"file": "wdns/str_to_name.c", "symbols": ["wdns_str_to_name"]}, {"file": "wdns/str_to_name.c", "symbols": ["wdns_str_to_name_case"]}]}
{"id": "C71", "title": "The grammar of TXT rdata texts", "statement": "wdns_str_to_rdata on TXT accepts exactly the texts that are a blank-separated list of quoted or bare character strings of at most 255 octets (escapes \\X and \\DDD up to 255), and returns exactly those strings, each behind its length octet; the reading of a text is unique.", "quantifier": "every text", "why_tests_cant": "the grammar has infinitely many texts; both acceptance and rejection are claimed", "anchors": [{"file": "wdns/str_to_rdata_ubuf.c", "symbols": ["_wdns_str_to_rdata_ubuf", "rdata_from_str", "str_to_ubuf"]}]}
{"id": "C72", "title": "The grammar of address texts", "statement": "wdns_str_to_rdata on A and AAAA accepts exactly the texts whose first word is an IPv4 dotted quad or an RFC 4291 IPv6 address (any legal compression, embedded IPv4), and returns exactly the 4 or 16 octets the address denotes; no text denotes two addresses.", "quantifier": "every text", "why_tests_cant": "infinitely many spellings; both acceptance and rejection are claimed", "anchors": [{"file": "wdns/str_to_rdata_ubuf.c", "symbols": ["_wdns_str_to_rdata_ubuf"]}]}
{"id": "C73", "title": "The grammar of rdata texts", "statement": "For every record type, wdns_str_to_rdata accepts exactly the texts that are a sequence of fields of the type's presentation layout (names, numbers, addresses, strings, hexadecimal, base64, base32hex, type lists, EUIs, service parameters, A6 prefixes) or, for a type without a layout, the generic form, and returns exactly the octets those fields stand for; no text has two readings.", "quantifier": "every record type, class and text", "why_tests_cant": "infinitely many texts per layout; both acceptance and rejection are claimed", "anchors": [{"file": "wdns/str_to_rdata_ubuf.c", "symbols": ["_wdns_str_to_rdata_ubuf", "str_to_svcparam"]}, {"file": "wdns/record_descr.c", "symbols": ["record_descr_array"]}]}
{"id": "C74", "title": "Rendering arbitrary octets as rdata", "statement": "wdns_rdata_to_str returns a text for any octets handed to it as rdata of any type and class without reading outside them, except exactly when a domain name is due in the layout of the type and only labels without a root label are left; and the text ends with the marker ### exactly for rdata that cannot be walked through along the layout of its type.", "quantifier": "every type, class and sequence of fewer than 65536 octets", "why_tests_cant": "arbitrary malformed octets for all layouts; the claim is exact in both directions", "anchors": [{"file": "wdns/rdata_to_ubuf.c", "symbols": ["_wdns_rdata_to_ubuf"]}, {"file": "wdns/rdata_to_str.c", "symbols": ["wdns_rdata_to_str"]}, {"file": "wdns/len_uname.c", "symbols": ["wdns_len_uname"]}]}
{"id": "C75", "title": "Reading rdata text in several threads", "statement": "wdns_str_to_rdata called by several threads at the same time (on NSEC3 text, whose hash is base32hex) gives each caller the result it would get alone, in every interleaving, whether or not the decoding table has been used before; no call waits for another.", "quantifier": "any number of calls, all texts, all schedules", "why_tests_cant": "the wrong results need a particular interleaving of the very first calls of the process", "anchors": [{"file": "libmy/b32_decode.c", "symbols": ["base32_decode", "base32_map"]}, {"file": "wdns/str_to_rdata_ubuf.c", "symbols": ["_wdns_str_to_rdata_ubuf"]}]}
{"id": "C76", "title": "Reading and writing text leaks nothing", "statement": "wdns_str_to_name, wdns_str_to_name_case, wdns_str_to_rdata, the wdns_*_to_str functions, the wdns_print_* functions and wdns_file_load_names allocate exactly the blocks they hand out: after success the result is the only new live block (none for wdns_print_*, one per name for wdns_file_load_names, whose file is closed), after an error there is none; no block is freed twice or used after it is freed.", "quantifier": "every text, rdata, record, message and file, every path out of each function", "why_tests_cant": "every error path of every field of every layout", "anchors": [{"file": "wdns/str_to_rdata_ubuf.c", "symbols": ["_wdns_str_to_rdata_ubuf", "base64_str_to_ubuf"]}, {"file": "wdns/str_to_name.c", "symbols": ["_wdns_str_to_name"]}, {"file": "wdns/rdata_to_str.c", "symbols": ["wdns_rdata_to_str", "wdns_str_to_rdata"]}, {"file": "wdns/message_to_str.c", "symbols": ["wdns_message_to_str"]}, {"file": "wdns/print_message.c", "symbols": ["wdns_print_message"]}, {"file": "wdns/file_load_names.c", "symbols": ["wdns_file_load_names"]}]}
{"id": "C77", "title": "Text accepted as rdata gives usable rdata", "statement": "If wdns_str_to_rdata accepts a text, the rdata it returns is usable: placed in a message, the parser accepts it and returns the same octets, wdns_rdata_to_str prints it without an error, and reading that text gives the same octets again.", "quantifier": "every record type and class, every text that is accepted", "why_tests_cant": "all texts of all layouts, including those with long labels, empty parameter values and odd lengths", "anchors": [{"file": "wdns/str_to_rdata_ubuf.c", "symbols": ["_wdns_str_to_rdata_ubuf"]}, {"file": "wdns/rdata_to_str.c", "symbols": ["wdns_str_to_rdata", "wdns_rdata_to_str"]}, {"file": "wdns/parse_rdata.c", "symbols": ["_wdns_parse_rdata"]}]}
{"id": "C78", "title": "RRsets of parsed messages can be stored and compared as bytes", "statement": "Every RRset of every message accepted by wdns_parse_message can be serialized (into exactly the size reported) and deserialized to an equal RRset; RRsets with the same name, type, class, TTL and the same rdatas in any order, from whatever messages, have the same serialization after wdns_sort_rrset.", "quantifier": "every packet the parser accepts, every section, every RRset, both byte orders, every qsort", "why_tests_cant": "all packets and all orders of records", "anchors": [{"file": "wdns/parse_message.c", "symbols": ["wdns_parse_message"]}, {"file": "wdns/serialize_rrset.c", "symbols": ["wdns_serialize_rrset"]}, {"file": "wdns/deserialize_rrset.c", "symbols": ["wdns_deserialize_rrset"]}, {"file": "wdns/sort_rrset.c", "symbols": ["wdns_sort_rrset"]}]}
{"id": "C79", "title": "Name compression and announced counts are transparent", "statement": "Two packets with the same identifier and flags that carry the same records, section by section, are parsed to the same message, however their names are compressed and whatever follows the packets in memory.", "quantifier": "every pair of packets that carry the same records", "why_tests_cant": "all ways to compress the names of a message", "anchors": [{"file": "wdns/parse_message.c", "symbols": ["wdns_parse_message"]}, {"file": "wdns/unpack_name.c", "symbols": ["wdns_unpack_name"]}, {"file": "wdns/parse_message_rr.c", "symbols": ["_wdns_parse_message_rr"]}]}
{"id": "C80", "title": "Functions on names bear any name object", "statement": "On a name object of arbitrary octets wdns_count_labels, wdns_is_subdomain, wdns_left_chop and wdns_reverse_name either give the right answer for the labels in it or report an error; they touch nothing outside the name and the output buffer.", "quantifier": "every octet string and every length, well-formed or not", "why_tests_cant": "all malformed names", "anchors": [{"file": "wdns/count_labels.c", "symbols": ["wdns_count_labels"]}, {"file": "wdns/is_subdomain.c", "symbols": ["wdns_is_subdomain"]}, {"file": "wdns/left_chop.c", "symbols": ["wdns_left_chop"]}, {"file": "wdns/reverse_name.c", "symbols": ["wdns_reverse_name"]}]}
{"id": "C81", "title": "Variable-length integers are exact, shortest and self-delimiting", "statement": "varint_encode32/64 write the unique shortest base-128 form of the number and return its length, which varint_length announces; varint_length_packed finds that length in any octets; varint_decode32/64 give the number back; nothing outside the encoded octets is touched.", "quantifier": "every 32- or 64-bit number and every octet string", "why_tests_cant": "2^64 numbers and all octet strings", "anchors": [{"file": "libmy/varint.c", "symbols": ["varint_encode32", "varint_encode64", "varint_decode32", "varint_decode64", "varint_length", "varint_length_packed"]}]}
{"id": "C82", "title": "The lock-free queue hands over every item once, in order, whole", "statement": "With one inserting and one removing thread on a machine with store buffers (x86-TSO), under every schedule of octet-sized steps and buffer flushes, the removed items are a prefix of the inserted items, at most n-1 items are inside, a call is refused only if the queue is full (empty) as far as the caller can see, the reported space and count are never too large, and every call ends after a bounded number of its own steps.", "quantifier": "every capacity and item size that fit in 32 bits, every item, every interleaving of the two threads and of the delayed stores", "why_tests_cant": "all schedules and store delays", "anchors": [{"file": "libmy/my_queue_mb.c", "symbols": ["my_queue_mb_init", "my_queue_mb_insert", "my_queue_mb_remove"]}, {"file": "libmy/my_memory_barrier.h", "symbols": ["smp_mb", "smp_wmb"]}]}
{"id": "C83", "title": "The mutex queue is linearizable", "statement": "With any number of inserting and removing threads under every schedule, the calls in the order in which they return are a history of a sequential bounded FIFO queue with capacity n-1, including which calls are refused; a thread in the critical section leaves it after a bounded number of its own steps.", "quantifier": "every number of threads, every schedule, every item", "why_tests_cant": "all schedules", "anchors": [{"file": "libmy/my_queue_mutex.c", "symbols": ["my_queue_mutex_init", "my_queue_mutex_insert", "my_queue_mutex_remove"]}]}
{"id": "C84", "title": "CRC-32C is exact on every machine and detects bursts and odd errors", "statement": "my_crc32c returns the CRC-32C of the octets (the complemented remainder on division by Castagnoli's polynomial over GF(2)), reading only them, for every length and every alignment, by tables on either byte order as well as with the processor's instructions; so the result does not depend on the machine. Two messages of the same checksum cannot differ only within 32 consecutive bits, nor (at equal length) in an odd number of bits.", "quantifier": "every octet string, length, address, byte order and processor", "why_tests_cant": "all messages and alignments", "anchors": [{"file": "libmy/crc32c.c", "symbols": ["my_crc32c"]}, {"file": "libmy/crc32c-slicing.c", "symbols": ["my_crc32c_slicing", "g_crc_slicing"]}, {"file": "libmy/crc32c-sse42.c", "symbols": ["my_crc32c_sse42"]}]}
{"id": "C85", "title": "The priority queue loses nothing and returns the first item", "statement": "Every sequence of heap_push, heap_pop, heap_replace and heap_peek on a new heap stays within its storage and returns; whatever the comparison function answers, the heap is exactly the bag of what was put in and not taken out; if the comparison function is a strict weak order, the returned item goes before (or ties with) every other, so that popping everything sorts; a call makes at most 2 log2(n+1) comparisons; heap_get(i) gives the i-th item or NULL.", "quantifier": "every sequence of calls, every comparison function, every item", "why_tests_cant": "all histories", "anchors": [{"file": "libmy/heap.c", "symbols": ["heap_push", "heap_pop", "heap_replace", "heap_peek", "heap_get", "siftup", "siftdown"]}]}
{"id": "C86", "title": "Hashes depend only on the key and the seeds", "statement": "my_hashlittle, my_hashlittle2 and my_hashbig return Jenkins's lookup3 hash of the octets of the key: the same for every alignment of the key, every byte order of the machine and with or without VALGRIND, and independent of what follows the key; no octet outside the key is read; my_hashword and my_hashword2 give the hash of the words, equal to that of the octets of the array in little- (or big-) endian order; the mixing steps lose no information.", "quantifier": "every key, length, address, seed, machine and configuration", "why_tests_cant": "all keys, lengths modulo 12 and alignments, on machines of both byte orders", "anchors": [{"file": "libmy/lookup3.c", "symbols": ["my_hashword", "my_hashword2", "my_hashlittle", "my_hashlittle2", "my_hashbig"]}]}
{"id": "C87", "title": "Address ranges", "statement": "ip4_lower/ip4_upper and ip6_lower/ip6_upper write the lowest and the highest address that agree with the given address in its first prefix_len bits, for every prefix length from 0 to 32 or 128; ip4_incr and ip6_incr write the next address, the last one being followed by the first.", "quantifier": "every address and every prefix length", "why_tests_cant": "2^32 and 2^128 addresses times all prefix lengths", "anchors": [{"file": "libmy/ip_arith.h", "symbols": ["ip4_lower", "ip4_upper", "ip4_incr", "ip6_lower", "ip6_upper", "ip6_incr"]}]}
{"id": "C88", "title": "File set", "statement": "For every history of reloads of a file set: the set consists of the listed files that exist, in bytewise order; what has been loaded and not unloaded is exactly what the set holds; nothing is unloaded twice, a file that stays listed keeps its pointer and is neither loaded nor unloaded again; destroying the set unloads everything.", "quantifier": "every sequence of reloads, of set file contents, of files that come and go, of failures of stat and fopen, every conforming qsort and bsearch", "why_tests_cant": "unbounded histories over an external file system", "anchors": [{"file": "libmy/my_fileset.c", "symbols": ["my_fileset_reload", "my_fileset_init", "my_fileset_destroy", "my_fileset_get", "setfile_updated", "fetch_entry"]}]}
{"id": "C89", "title": "Hexadecimal input of the test programs", "statement": "hex_decode accepts exactly the non-empty texts of pairs of hexadecimal digits of either case and yields the octets they denote in one new block; every other text is refused with the heap as before; no access is out of bounds. The driver exits with 0 exactly if the text decodes and the load function accepts the octets, prints exactly what the test function prints, and leaves no block behind.", "quantifier": "every text, every heap, every load and test function", "why_tests_cant": "unbounded text and every load/test function", "anchors": [{"file": "libmy/hex_decode.h", "symbols": ["hex_decode", "hex_to_int"]}, {"file": "examples/wdns-hex-driver.c", "symbols": ["main", "hex_decode"]}]}
{"id": "C90", "title": "Captured packets", "statement": "wdns-dump-pcap hands to the parser exactly the captured part of the UDP payload of an IPv4/UDP frame, and for no capture octets outside it.", "quantifier": "every capture: any octets, any capture length below 2^32, any padding", "why_tests_cant": "unbounded packets, attacker-chosen header fields", "anchors": [{"file": "examples/wdns-dump-pcap.c", "symbols": ["packet_handler"]}]}
{"id": "C91", "title": "Dumping a file", "statement": "wdns-dump-file refuses every file of 4096 octets or more; on every smaller file it ends without reading outside its array, exits with 0 exactly if the parser accepts the file (with a zero octet behind it) and then prints the header, EDNS and one line per record of the message, and otherwise exits with 1 and prints nothing.", "quantifier": "every file contents of every length", "why_tests_cant": "unbounded set of files, any record layout", "anchors": [{"file": "examples/wdns-dump-file.c", "symbols": ["main", "process_data"]}, {"file": "wdns/parse_message.c", "symbols": ["wdns_parse_message"]}, {"file": "wdns/print_message.c", "symbols": ["wdns_print_message"]}]}
{"id": "C92", "title": "Serializing and deserializing test programs", "statement": "For a packet the parser accepts, wdns-test-serialize-rrset prints one hexadecimal line per RRset of the answer, authority and additional sections, in order, and wdns-test-deserialize-rrset given such a line prints the lines of exactly this RRset, and wdns-test-downcase-rrset those of this RRset with the names of RFC 4034 6.2 lower-cased; no block is left behind.", "quantifier": "every accepted packet, both byte orders, every heap", "why_tests_cant": "unbounded packets and a composition of two programs", "anchors": [{"file": "examples/wdns-test-serialize-rrset.c", "symbols": ["testfunc", "print_data"]}, {"file": "examples/wdns-test-deserialize-rrset.c", "symbols": ["loadfunc", "testfunc"]}, {"file": "examples/wdns-test-downcase-rrset.c", "symbols": ["loadfunc", "testfunc"]}, {"file": "examples/wdns-hex-driver.c", "symbols": ["main"]}]}
{"id": "C93", "title": "Replacing a string", "statement": "string_replace with a non-empty search string ends and returns the text in which the occurrences, searched from the left and not overlapping, are replaced, and nothing else is changed.", "quantifier": "every text, search string and replacement", "why_tests_cant": "unbounded strings; overlapping occurrences", "anchors": [{"file": "libmy/string_replace.h", "symbols": ["string_replace"]}]}
{"id": "C94", "title": "Reading an exact number of octets", "statement": "read_bytes returns true exactly if the descriptor gives the number of octets asked for before it ends or fails, whatever the sizes of the individual reads and however often they are interrupted; the buffer then holds exactly those octets, it is never overrun, and exactly the octets behind them remain to be read.", "quantifier": "every sequence of results of read(2)", "why_tests_cant": "unbounded histories of short reads, interruptions and errors", "anchors": [{"file": "libmy/read_bytes.h", "symbols": ["read_bytes"]}]}
{"id": "C95", "title": "Time arithmetic and rate limiting", "statement": "Adding and subtracting times is exact and gives normalised results; the next tick is after the given time and at most one period away; calls of my_rate_sleep return at most once per period in every run.", "quantifier": "every normalised time in range, every period, every run of calls", "why_tests_cant": "unbounded runs, all clock values", "anchors": [{"file": "libmy/my_time.h", "symbols": ["my_timespec_add", "my_timespec_sub"]}, {"file": "libmy/my_rate.c", "symbols": ["my_rate_sleep", "calc_next_tick"]}]}
{"id": "C96", "title": "Thread numbers", "statement": "In every interleaving the threads that have registered have different numbers, given consecutively from 0; a thread's number is changed only by itself.", "quantifier": "every number of threads and every schedule", "why_tests_cant": "schedules are unbounded", "anchors": [{"file": "libmy/threadnum.c", "symbols": ["my_threadnum_register", "my_threadnum"]}]}
{"id": "C97", "title": "Printing octets in quotation marks", "statement": "print_string writes printable ASCII only, on one line, with every quotation mark inside escaped, and different octet sequences are written differently.", "quantifier": "every octet sequence", "why_tests_cant": "unbounded sequences; injectivity relates pairs", "anchors": [{"file": "libmy/print_string.h", "symbols": ["print_string"]}]}
{"id": "C98", "title": "Doubly-linked lists", "statement": "After every history of the list macros in which only unlinked elements are inserted and only linked ones removed or used as position, every list holds exactly the elements it is to hold, in order and linked in both directions, no macro dereferences a bad pointer, and the linked and empty tests are exact.", "quantifier": "every number of lists and elements, every history of operations", "why_tests_cant": "unbounded histories over pointer structures", "anchors": [{"file": "libmy/list.h", "symbols": ["ISC_LIST_APPEND", "ISC_LIST_PREPEND", "ISC_LIST_UNLINK", "ISC_LIST_INSERTBEFORE", "ISC_LIST_INSERTAFTER", "ISC_LIST_APPENDLIST"]}]}
{"id": "C99", "title": "Red-black trees", "statement": "With a comparison function that orders the elements, every history of insertions and removals (of members) on an empty tree returns what the same history on an ordered set returns, touches no element that is never inserted, and never dereferences a bad pointer; afterwards find, nfind, min, max, next, prev and the loops over all elements in both directions give what they give for that set; and every loop of a call on n elements runs at most 2 log2(n+1) + 2 times.", "quantifier": "every comparison function that is a total preorder, every history, every memory", "why_tests_cant": "unbounded histories over pointer structures, and a worst-case bound", "anchors": [{"file": "libmy/tree.h", "symbols": ["RB_INSERT", "RB_REMOVE", "RB_INSERT_COLOR", "RB_REMOVE_COLOR", "RB_FIND", "RB_NFIND", "RB_NEXT", "RB_PREV", "RB_MINMAX", "RB_FOREACH"]}]}
{"id": "C100", "title": "Splay trees", "statement": "With a comparison function that orders the elements, every history of insert, remove, find, next, min and max calls on an empty splay tree returns what the same history on an ordered set returns, touches no element that is never inserted, and never dereferences a bad pointer; every loop of a call on n elements runs at most n times; the loop over all elements visits each once in order although every step rearranges the tree. (A removal takes out the member equal to its argument, and returns the argument.)", "quantifier": "every comparison function that is a total preorder, every history, every memory", "why_tests_cant": "unbounded histories over pointer structures that even lookups rewrite", "anchors": [{"file": "libmy/tree.h", "symbols": ["SPLAY", "SPLAY_INSERT", "SPLAY_REMOVE", "SPLAY_FIND", "SPLAY_NEXT", "SPLAY_MINMAX", "SPLAY_MIN", "SPLAY_MAX", "SPLAY_FOREACH"]}]}
{"id": "C101", "title": "Which error codes the functions return", "statement": "wdns_unpack_name fails only with out_of_bounds, invalid_compression_pointer, name_overflow or invalid_length_octet; _wdns_parse_rdata only with these or parse_error; wdns_parse_message only with these, overflow or len, each of which some message gets, and len exactly for messages shorter than the header. The code that _wdns_parse_rdata and wdns_parse_message return names the first thing that is wrong, reading from left to right: for every code, the inputs rejected with it are described completely. wdns_str_to_name(_case) rejects only with parse_error or name_overflow; wdns_str_to_rdata with parse_error, with name_overflow only if the layout of the type has a name, and with failure exactly for OPT texts that are not blank; name_overflow is returned exactly if everything in front of a name is right and the name is too long, parse_error for every other text that is not read.", "quantifier": "every memory content, offset, length, text, type and class", "why_tests_cant": "a code returned on one path of hundreds can only be excluded over all inputs", "anchors": [{"file": "wdns/unpack_name.c", "symbols": ["wdns_unpack_name"]}, {"file": "wdns/parse_rdata.c", "symbols": ["_wdns_parse_rdata"]}, {"file": "wdns/parse_message.c", "symbols": ["wdns_parse_message"]}, {"file": "wdns/str_to_name.c", "symbols": ["wdns_str_to_name"]}, {"file": "wdns/str_to_rdata_ubuf.c", "symbols": ["_wdns_str_to_rdata_ubuf"]}]}
{"id": "C102", "title": "A spool directory hands out each file once and loses none", "statement": "spooldir_init succeeds exactly if the directory and its two subdirectories exist or can be made. Whatever threads call spooldir_next at the same time, whatever other processes create and remove meanwhile and whichever system calls fail: no undefined behaviour, no deadlock, one thread at a time touches the directory stream and the shared buffer; no file is handed out twice; a file that is moved to active is reported, once, to the call that moved it, under its new path; no hidden file is handed out; files in incoming are never lost; a file handed out stays until its owner removes it. A call that is not interfered with takes the first visible regular file that readdir reports.", "quantifier": "every interleaving of any number of threads and other processes, every result of every system call, every directory content", "why_tests_cant": "interleavings, failing renames and name collisions cannot be enumerated", "anchors": [{"file": "libmy/spooldir.c", "symbols": ["spooldir_init", "spooldir_next"]}]}
{"id": "C103", "title": "A zone file is read once, in order, and leaves nothing allocated", "statement": "zonefile_init_fname opens a file (through zcat if the name ends in .gz) exactly if its first record is a SOA record and nothing in front of it is malformed; the domain is the owner of that record and the serial number is its serial. Otherwise it returns NULL and leaves nothing allocated. Reading n times gives the SOA record, then the other records in the order of the file, then NULL for ever; the count is the number of records so far. Records belong to the caller, and zonefile_destroy releases everything else.", "quantifier": "every file content, every file name, every number of reads, every heap", "why_tests_cant": "files and read sequences are unbounded; leaks do not show in results", "anchors": [{"file": "libmy/zonefile.c", "symbols": ["zonefile_init_fname", "zonefile_read", "zonefile_destroy", "zonefile_get_serial"]}]}
{"id": "C104", "title": "Atomic counters lose no update, and reference counting works", "statement": "However threads interleave their operations on an atomic counter, the value at the end has changed by the sum of all that was added and subtracted, modulo the width. As long as the true sum fits, reading gives it and every test (zero, negative) tells the truth; of n holders that drop their reference exactly the last one is told so. What reading-and-resetting returned, plus what is left, is all that was added. Setting a counter forgets what was before. Setting an atomic pointer stores the argument exactly if it returns true.", "quantifier": "every interleaving of every sequence of operations of any number of threads, both widths", "why_tests_cant": "interleavings cannot be enumerated, and the width matters only beyond 2^31", "anchors": [{"file": "libmy/atomic.h", "symbols": ["atomic_add", "atomic_sub", "atomic_zero", "atomic_dec_and_test", "atomic_add_negative"]}, {"file": "libmy/atomic_64.h", "symbols": ["atomic64_zero"]}, {"file": "libmy/atomic_ptr.h", "symbols": ["atomic_ptr_get", "atomic_ptr_set"]}]}
{"id": "C105", "title": "An integer from the environment", "statement": "getenv_int returns true exactly if the variable is set to a number as C writes it (decimal, octal after 0, hexadecimal after 0x; white space and a sign may precede), and stores its value; otherwise it returns false and leaves the value alone.", "quantifier": "every content of the variable", "why_tests_cant": "strings are unbounded", "anchors": [{"file": "libmy/getenv_int.h", "symbols": ["getenv_int"]}]}
{"id": "C106", "title": "Byte order and packing into a buffer", "statement": "my_bswap32 reverses the four octets of a word; a word read from memory and passed through my_le32toh has the little-endian value of the octets on every machine. Packing a message piece by piece into a growable buffer appends exactly the pieces.", "quantifier": "every word, both byte orders, every sequence of pieces", "why_tests_cant": "2^32 words on machines that are not at hand; sequences are unbounded", "anchors": [{"file": "libmy/my_byteorder.h", "symbols": ["my_bswap32", "my_le32toh", "my_htole32"]}, {"file": "libmy/ubuf-pb.h", "symbols": ["ubuf_protobuf_c_buffer_append"]}]}
{"id": "C107", "title": "A packet cannot make the parser use much more than its size", "statement": "Decompressing a name takes at most 16766 iterations, and at most 382 more than the offset of the name. The names and rdatas of a parsed message take at most 96 octets for each octet behind the header, the octet behind the packet counting as one. There is at most one record for each five octets behind the header, whatever the header announces. The text of rdata has at most 88 characters for each octet and 30 more, the line of a record at most 88 for each octet of its rdata and 1100 more, the text of a section the sum of these; the text of a packet of n octets has at most 34012 (n - 11) + 1000 characters.", "quantifier": "every memory content, packet length, offset, rdata, record type and class", "why_tests_cant": "the worst packet has to be found among all packets", "anchors": [{"file": "wdns/unpack_name.c", "symbols": ["wdns_unpack_name"]}, {"file": "wdns/parse_message.c", "symbols": ["wdns_parse_message"]}, {"file": "wdns/parse_rdata.c", "symbols": ["_wdns_parse_rdata"]}, {"file": "wdns/insert_rr_rrset_array.c", "symbols": ["_wdns_insert_rr_rrset_array"]}, {"file": "wdns/rdata_to_ubuf.c", "symbols": ["_wdns_rdata_to_ubuf"]}, {"file": "wdns/rr_to_ubuf.c", "symbols": ["_wdns_rr_to_ubuf"]}, {"file": "wdns/message_to_str.c", "symbols": ["wdns_message_to_str"]}]}
{"id": "C108", "title": "Processing a command line returns and stays inside its objects", "statement": "argv_process returns, for every array of entries, arguments, environment value and argument files, and reads and writes only objects it may use: the entries of the array up to the end, the queue of options that wait for a value, the texts of the arguments.", "quantifier": "every array of entries, list of arguments, environment value, file system, standard input", "why_tests_cant": "the number of options waiting for values, the position of the matched entry and the nesting of argument files depend on all inputs together", "anchors": [{"file": "libmy/argv.c", "symbols": ["argv_process_no_env", "do_list", "do_arg", "check_or", "check_xor", "file_args", "string_to_value"]}]}
{"id": "C109", "title": "A successful command line satisfies the array", "statement": "If argv_process reports success then no two alternatives of an ARGV_OR or ARGV_XOR group have both been given, at least one entry of every ARGV_XOR group has been given, and every ARGV_MAND argument and every option with ARGV_FLAG_MAND has been given; and except for variables and marks the array is as the program wrote it.", "quantifier": "every array of entries, list of arguments, environment value, file system", "why_tests_cant": "options come from three sources in any order, and files inside files", "anchors": [{"file": "libmy/argv.c", "symbols": ["check_or", "check_xor", "check_mand", "do_arg", "argv_process_no_env"]}]}
{"id": "C111", "title": "Texts in base 2, 8 and 16 are read as their numbers", "statement": "ARGV_BIN, ARGV_OCT and ARGV_HEX values are exactly the number that the text has in that base, from its first character that is not a space up to the first that is no digit, as long as it is less than 2^31.", "quantifier": "every text", "why_tests_cant": "texts have every length", "anchors": [{"file": "libmy/argv.c", "symbols": ["btoi", "otoi", "htoi"]}]}
{"id": "C112", "title": "argv_copy_args and the environment words are exact", "statement": "argv_copy_args writes exactly the arguments behind the program's name with one space between them, as far as the buffer goes with a final NUL, and nothing for a size of 0. The value of the ARGV_<PROGRAM> environment variable is split exactly into its words, whatever the path under which the program is called, and they count as if they stood in front of the arguments (or behind them, as argv_env_after_b is set).", "quantifier": "every list of arguments, buffer size, environment value", "why_tests_cant": "every size of buffer can cut at every place", "anchors": [{"file": "libmy/argv.c", "symbols": ["argv_copy_args", "vectorize", "preprocess_env_args", "argv_process_no_env"]}]}
{"id": "C110", "title": "A command line means what it says", "statement": "If argv_process accepts a command line, whichever way each thing is written in it (-c, --name, an unambiguous abbreviation, the value in the next word or behind '=', arguments by position, and anything behind --), then exactly the entries that it names have been given, and every variable holds exactly the values said for it, in order: the last one for a single variable, all of them for an array, the default if none. argv_was_used says of every option whether it was given.", "quantifier": "every array, every list of things to say, every way to write each", "why_tests_cant": "the ways to write combine in every order", "anchors": [{"file": "libmy/argv.c", "symbols": ["do_list", "do_arg", "string_to_value", "argv_process_no_env"]}]}
{"id": "C113", "title": "Which command lines are accepted", "statement": "argv_process_no_env reports no error exactly if every option is allowed where it stands (it is no alternative of one given before and, unless repetition is accepted, not given before, arrays and counters excepted), every argument by position has an entry that takes it, every mandatory entry is given, and of every group of which one is required one is given. An option that there is not, one that is ambiguous, and one whose value is missing at the end are rejected, whatever else the line says. An array that describes no command line is rejected, and nothing is changed.", "quantifier": "every array, every list of things to say, every way to write each", "why_tests_cant": "the conditions combine in every order", "anchors": [{"file": "libmy/argv.c", "symbols": ["do_list", "do_arg", "check_or", "check_xor", "check_mand", "check_opt", "argv_process_no_env"]}]}
{"id": "C114", "title": "Values on a command line are read as they are written", "statement": "Every text that denotes a value of the type of its entry is read as exactly this value: numbers in decimal over the whole range of their type (with or without a sign, whatever follows the digits), sizes with k, m or g, truths, binary, octal and hexadecimal numbers, characters, texts. A flag that is given is 1 (or 0 if it is a negated one), a counter is larger by the number of times it is given, and an array holds one value for each text, in order. A text that denotes no value of the type is rejected.", "quantifier": "every type, every text, every number of repetitions", "why_tests_cant": "texts are of any length and ranges are large", "anchors": [{"file": "libmy/argv.c", "symbols": ["string_to_value", "btoi", "otoi", "htoi"]}, {"file": "libmy/argv_loc.h", "symbols": ["HAS_ARG"]}]}
{"id": "C115", "title": "Running out of memory never gives a wrong result", "statement": "Whatever requests for memory are refused while a message is parsed, an RRset deserialized, a name or rdata read from text, names loaded from a file, or rdata, records, RRsets or a message written as text: if the call returns, it returns exactly what it would return with enough memory, having allocated exactly what the result owns and nothing on failure. Otherwise the process is ended by an assertion, and only if a request was refused; nothing undefined happens.", "quantifier": "every input, every set of refused requests, every state of the heap", "why_tests_cant": "failures can happen at any request in any combination", "anchors": [{"file": "libmy/my_alloc.h", "symbols": ["my_malloc", "my_realloc"]}, {"file": "wdns/parse_message.c", "symbols": ["wdns_parse_message"]}, {"file": "wdns/str_to_rdata_ubuf.c", "symbols": ["_wdns_str_to_rdata_ubuf"]}, {"file": "wdns/rdata_to_ubuf.c", "symbols": ["bytes_to_ubuf_base64"]}, {"file": "wdns/deserialize_rrset.c", "symbols": ["wdns_deserialize_rrset"]}, {"file": "wdns/str_to_name.c", "symbols": ["_wdns_str_to_name"]}, {"file": "wdns/message_to_str.c", "symbols": ["wdns_message_to_str"]}, {"file": "wdns/rr_to_ubuf.c", "symbols": ["_wdns_rr_to_ubuf"]}, {"file": "wdns/file_load_names.c", "symbols": ["wdns_file_load_names"]}]}
{"id": "C116", "title": "Values of options are shown as text that fits and can be given again", "statement": "For a value of any type, the buffer gets its text (truths in words, numbers in decimal, binary, octal and hexadecimal numbers in their base and in decimal, sizes in the largest unit that divides them and in full; for an array its first value and how many there are), cut to the size that is given, and a NUL; nothing behind that size is written, and the length of the text is returned. The text of a value, given as an argument of the same type, is read as this value.", "quantifier": "every type, every value it can hold, every buffer of at least two octets and what it held before", "why_tests_cant": "ranges are large, and what is left behind in the buffer depends on what was there before", "anchors": [{"file": "libmy/argv.c", "symbols": ["argv_value_string", "value_to_string", "expand_buf"]}, {"file": "libmy/argv_loc.h", "symbols": ["SPECIAL_CHARS"]}]}
{"id": "C117", "title": "Settings in GLOBAL_ARGV are applied once, word by word", "statement": "The words of the variable GLOBAL_ARGV (separated by spaces, tabs, commas, colons) change the settings of the routines for command lines in their order, each of the documented words exactly what it names and any other word nothing; the first call reads its command line with these settings, and later calls do not read the variable again.", "quantifier": "every text of the variable, every settings of the program, every command line", "why_tests_cant": "the variable can hold any text", "anchors": [{"file": "libmy/argv.c", "symbols": ["process_env", "argv_process"]}, {"file": "libmy/argv_loc.h", "symbols": ["GLOBAL_NAME", "GLOBAL_CLOSE"]}]}
{"id": "C118", "title": "Whether a long option was used can be asked by its name", "statement": "Asked for a long name, the answer is whether the option with this name was used.", "quantifier": "every array of options, every name", "why_tests_cant": "arrays and names are unbounded", "anchors": [{"file": "libmy/argv.c", "symbols": ["argv_long_was_used", "argv_was_used"]}]}
{"id": "C119", "title": "What was stored for a command line can be given back", "statement": "After a command line has been processed, argv_cleanup gives back exactly the strings that the processing has stored in the variables, each once; it frees no pointer of the program's own, empties the arrays, and leaves every other variable alone.", "quantifier": "every array of options, every values of the variables before, every command line, argument files and environment included", "why_tests_cant": "arrays, command lines and defaults are unbounded; whether a pointer may be freed depends on the whole history of the processing", "anchors": [{"file": "libmy/argv.c", "symbols": ["argv_cleanup", "string_to_value", "do_arg", "argv_process"]}]}
{"id": "C120", "title": "A text identifies what it was made from", "statement": "Two packets that are written as the same text by wdns_message_to_str have the same id, operation code, response code, flags, EDNS parameters and EDNS options, and in every section the same records (owner, class, type, TTL, rdata) in the same order; likewise for wdns_rrset_array_to_str and wdns_rr_to_str. So records logged as text can be compared as text.", "quantifier": "every two packets that are parsed, of any number of records", "why_tests_cant": "it is a claim about pairs of packets of unbounded size: a collision of two texts cannot be excluded by trying some", "anchors": [{"file": "wdns/message_to_str.c", "symbols": ["wdns_message_to_str"]}, {"file": "wdns/rr_to_str.c", "symbols": ["wdns_rr_to_str"]}, {"file": "wdns/rrset_array_to_str.c", "symbols": ["wdns_rrset_array_to_str"]}, {"file": "wdns/rdata_to_str.c", "symbols": ["_wdns_rdata_to_ubuf"]}]}
{"id": "C121", "title": "The usage messages name every option", "statement": "argv_usage and --usage write, in the order of the array, every option and argument with its value, long name and comment: in the short message once each, in the long one a line each, with the comments in one column; no line is longer than 79 columns.", "quantifier": "every array of options, with any labels, names and comments, and every program name", "why_tests_cant": "the arrays and texts are unbounded, and the columns are counted by hand in the code", "anchors": [{"file": "libmy/argv.c", "symbols": ["argv_usage", "do_usage", "usage_short", "usage_long", "display_arg", "display_option"]}]}
{"id": "C122", "title": "The variables can be displayed, and every documented word does what it says", "statement": "--argv-display writes a line for every option with its type and the value of its variable; --usage, --usage-short, --usage-long, --usage-all, --help and --version write their message.", "quantifier": "every array of options and all values of the variables", "why_tests_cant": "values and arrays are unbounded; a word may be shadowed by another one for all inputs", "anchors": [{"file": "libmy/argv.c", "symbols": ["display_variables", "do_list", "value_to_string"]}]}
{"id": "C123", "title": "A command line that is refused is explained", "statement": "argv_process writes to argv_error_stream if and only if it refuses the line; what it writes in front of the usage message is true: every option it calls unknown, ambiguous, given twice or exclusive is, the options and values it says are missing are exactly those that are missing, and the group it says nothing was given of is one; every unknown option is named; and an array that is refused is refused for the reason that is written.", "quantifier": "every array of options, every command line, environment, argument files and settings", "why_tests_cant": "lines, arrays and the nesting of argument files are unbounded; the messages come from fifteen places in the code", "anchors": [{"file": "libmy/argv.c", "symbols": ["argv_process", "do_list", "do_arg", "check_or", "check_xor", "check_mand", "check_opt", "file_args", "preprocess_array", "string_to_value"]}]}
{"id": "C124", "title": "The functions on names fit together", "statement": "For all names: wdns_is_subdomain accepts a name and any name obtained from it by wdns_left_chop, and is the prefix relation on the names that wdns_reverse_name gives; it does not see the case of letters; wdns_downcase_name commutes with wdns_reverse_name, and the text of a lowered name is the lowered text of the name.", "quantifier": "all valid uncompressed names and pairs of them", "why_tests_cant": "names are arbitrary sequences of labels; each law relates two functions that are tested separately", "anchors": [{"file": "wdns/is_subdomain.c", "symbols": ["wdns_is_subdomain"]}, {"file": "wdns/left_chop.c", "symbols": ["wdns_left_chop"]}, {"file": "wdns/reverse_name.c", "symbols": ["wdns_reverse_name"]}, {"file": "wdns/downcase_name.c", "symbols": ["wdns_downcase_name"]}, {"file": "wdns/domain_to_str.c", "symbols": ["wdns_domain_to_str"]}]}
{"id": "C125", "title": "Version numbers", "statement": "wdns_get_version_number is the number the header defines, numbers of later versions are greater as long as minor version and patch level are below their limits, the three parts can be read back from the number, and the text of the version is that of its three parts.", "quantifier": "all triples of version parts below their limits", "why_tests_cant": "the parts change with each release", "anchors": [{"file": "wdns/version.c", "symbols": ["wdns_get_version", "wdns_get_version_number"]}, {"file": "wdns/wdns.h.in", "symbols": ["WDNS_LIBRARY_VERSION_NUMBER"]}, {"file": "configure.ac", "symbols": ["AC_INIT"]}]}
{"id": "C126", "title": "In its default mode argv_process returns only with a line that is accepted", "statement": "With argv_interactive set (the default): if argv_process returns, the line was accepted, nothing was written and the variables are those of the mode that returns an error; if the program is ended, then with 0 after the answer to an argument that asks for help, the version or the variables, or with argv_error_code after a true explanation; a line that is accepted and asks for nothing is processed as in the other mode; a line that asks is never processed; and text goes to standard error unless another stream was chosen.", "quantifier": "every array of options, command line, environment, argument files, settings, and first or later call", "why_tests_cant": "lines, arrays and the nesting of argument files are unbounded, and exit is called from fourteen places", "anchors": [{"file": "libmy/argv.c", "symbols": ["argv_process", "argv_process_no_env", "argv_startup", "do_list", "file_args", "preprocess_array", "do_usage"]}, {"file": "libmy/argv_loc.h", "symbols": ["ERROR_STREAM_INIT"]}]}
{"id": "C127", "title": "Any octets have a name text", "statement": "wdns_domain_to_str bears any octets, not only well-formed names: it shows each label, escaped and followed by a dot, up to a zero octet or the end of the octets; for at most 255 octets the text fits a buffer of WDNS_PRESLEN_NAME; it returns the number of octets it has read and reads no others.", "quantifier": "every sequence of octets, every length, every buffer size", "why_tests_cant": "the octets of a name object come from the caller and are not checked by the function; labels of all lengths, cut off anywhere", "anchors": [{"file": "wdns/domain_to_str.c", "symbols": ["wdns_domain_to_str"]}]}
{"id": "C128", "title": "Packets cut short, and packets with something appended", "statement": "If a packet is accepted and so are its first octets up to some place, the shorter one gives the same identifier and flags, in every section its records are the first records of the longer one in the same order, and if it has an OPT record, EDNS parameters and response code are the same: cutting a packet loses records at the end and never shows one that was not there. A packet that is accepted with nothing readable behind it and has all the records that its header announces is parsed to the same message whatever is appended to it.", "quantifier": "every packet, every place to cut it, everything appended, every memory behind both", "why_tests_cant": "a cut can be anywhere: in a name, in an rdata, in the SvcParams, and names may be completed by what lies behind", "anchors": [{"file": "wdns/parse_message.c", "symbols": ["wdns_parse_message"]}, {"file": "wdns/parse_message_rr.c", "symbols": ["_wdns_parse_message_rr"]}, {"file": "wdns/parse_rdata.c", "symbols": ["_wdns_parse_rdata"]}]}
{"id": "C129", "title": "RRsets do not depend on the order of records", "statement": "If a section (answer, authority or additional) has the same records in two accepted packets, in whatever order, then the sections have equally many RRsets, and to every RRset of the one there is an RRset of the other with the same type, class and TTL, the same owner name up to the case of letters and the same rdatas up to their order; if the owner name is spelled alike in its records, both are serialized to the same octets after wdns_sort_rrset. So shuffled answers are stored alike.", "quantifier": "every two packets, every memory behind them, every order of the records, every sorting algorithm of qsort", "why_tests_cant": "the number of orders grows as a factorial, and the code inserts records one by one", "anchors": [{"file": "wdns/parse_message.c", "symbols": ["wdns_parse_message"]}, {"file": "wdns/insert_rr_rrset_array.c", "symbols": ["_wdns_insert_rr_rrset_array"]}, {"file": "wdns/sort_rrset.c", "symbols": ["wdns_sort_rrset"]}]}
{"id": "C130", "title": "Whatever a program does, blocks and objects correspond", "statement": "Take any program that parses messages, deserializes RRsets, converts texts to names and rdata, renders names, rdata, records and messages, clears messages and RRsets (also those of failed calls, also twice) and frees the blocks handed to it, in any order and any number of times. At every moment the live blocks are exactly the blocks of the objects that it holds, each belonging to one object only; any object can then be given back, which succeeds and releases its own blocks and no others; once all are given back nothing is allocated; and what a call gives does not depend on the history.", "quantifier": "every sequence of calls of every length, every input of each, every order of releases, every numbering of blocks by the allocator", "why_tests_cant": "the number of histories is unbounded; a test runs a few of them", "anchors": [{"file": "wdns/parse_message.c", "symbols": ["wdns_parse_message"]}, {"file": "wdns/deserialize_rrset.c", "symbols": ["wdns_deserialize_rrset"]}, {"file": "wdns/clear.c", "symbols": ["wdns_clear_message"]}, {"file": "wdns/clear.c", "symbols": ["wdns_clear_rrset"]}, {"file": "wdns/str_to_name.c", "symbols": ["wdns_str_to_name"]}, {"file": "wdns/rdata_to_str.c", "symbols": ["wdns_str_to_rdata"]}]}
{"id": "C131", "title": "Spelling and order do not matter for what is stored", "statement": "Take two accepted packets and a section (answer, authority or additional) whose records are the same in both, up to their order and up to the case of letters in names, in owner names as well as inside rdata of the types whose names are lower-cased. Then to every RRset of the one there is an RRset of the other with the same type, class and TTL, the same owner name up to case and the same rdatas up to order and case; and wdns_downcase_rrset succeeds on both, after which wdns_sort_rrset and wdns_serialize_rrset give the same octets. So an answer whose case was randomized is stored like any other. (Names with a zero octet in a label and A6 rdata are excepted: they are not lower-cased, C59.)", "quantifier": "every two packets, every memory behind them, every spelling and order of the records, every sorting algorithm of qsort", "why_tests_cant": "the number of spellings and orders is exponential", "anchors": [{"file": "wdns/parse_message.c", "symbols": ["wdns_parse_message"]}, {"file": "wdns/insert_rr_rrset_array.c", "symbols": ["_wdns_insert_rr_rrset_array"]}, {"file": "wdns/downcase_rrset.c", "symbols": ["wdns_downcase_rrset"]}, {"file": "wdns/downcase_rdata.c", "symbols": ["wdns_downcase_rdata"]}, {"file": "wdns/sort_rrset.c", "symbols": ["wdns_sort_rrset"]}]}
{"id": "C132", "title": "A stored RRset that is fetched is the one that was parsed", "statement": "Take any RRset of the answer, authority or additional section of any parsed message (with fewer than 65536 octets in each rdata, C39; all packets of at most 65305 octets without overlong SvcParams are such). Serialized, and deserialized from a buffer that holds the octets and whatever follows, it is the same in every field and every octet of its blocks, so that every function (text, lower-casing, sorting, comparing, serializing again) gives the same for it; and different RRsets, of one message or two, are never serialized to the same octets.", "quantifier": "every packet, every memory behind it, every RRset of it, every pair of them, both byte orders, everything behind the stored octets", "why_tests_cant": "packets and RRsets are unboundedly many, and pairs of them more so", "anchors": [{"file": "wdns/parse_message.c", "symbols": ["wdns_parse_message"]}, {"file": "wdns/serialize_rrset.c", "symbols": ["wdns_serialize_rrset"]}, {"file": "wdns/deserialize_rrset.c", "symbols": ["wdns_deserialize_rrset"]}]}
