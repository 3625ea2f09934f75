{
 "C01": {
  "note": "Full statement, for every message and offset."
 },
 "C02": {
  "note": "Completeness is proved in full. Soundness holds except that the code may read one byte at the end of the message (eop); C02_unpack_exact_violated is the witness, C02_unpack_exact_overread says exactly what happens. C02_unpack_faults: the code for every rejected name (Spec/UnpackFaults.lean)."
 },
 "C03": {
  "note": "Full."
 },
 "C04": {
  "note": "Writes bounded by 255 proved in full; reads are inside [p, eop], where the byte at eop itself can be read: C04_unpack_safe_violated. C04_unpack_inside: safe whenever the byte after the packet is readable. C04_unpack_leaves: exactly which names lead out of a message with nothing readable behind it."
 },
 "C05": {
  "note": "Full."
 },
 "C06": {
  "note": "Full. Which code a refused copy gets, for every refused copy: C06_copy_faults."
 },
 "C07": {
  "note": "Cursor bounds proved in full. C07_skip_overread records that *eod itself may be read by the code. C07_skip_exactly: where it stops, for all octets; C07_skip_leaves: exactly when the octet behind the data is read."
 },
 "C08": {
  "note": "Full."
 },
 "C09": {
  "note": "The code reports success with olen+1 on an unterminated name: C09_len_violated. The answer for every buffer: C09_len_exactly."
 },
 "C13": {
  "note": "Full for well-formed names with a buffer of the name's length. C13_reverse_short_buffer_violated records that a buffer one octet too small is overrun instead of reported."
 },
 "C17": {
  "note": "No 63-octet check in the code: C17_parsed_wellformed_violated."
 },
 "C18": {
  "note": "Writes never exceed the block (full). Reads stay inside except when the text ends in an unpaired backslash: C18_scan_safe_violated; C18_scan_exactly gives all such texts."
 },
 "C19": {
  "note": "Equality up to letter case and same failures: full. Exact equality for text without backslash; escaped capitals are kept by the code: C19_scan_downcase_violated. A label of 65 to 90 characters has its length octet changed by downcasing: C19_long_label_violated."
 },
 "C32": {
  "note": "Full: for every grammatical packet (whatever follows it in memory) and for every accepted packet."
 },
 "C33": {
  "note": "The code shifts the upper RCODE bits to bit 8 instead of bit 4: C33_ext_rcode_violated; C33_actual_rcode gives the value it computes."
 },
 "C34": {
  "note": "Violated: C34_terminates_violated is a packet, C34_hang_class the class of rdatas, C34_packets_hang the class of packets (first record SVCB/HTTPS with proper SvcParams and then one of length 0xFFFC and key 0, 4, 5 or above 6). Termination proved for every packet without a SvcParam of length field 65532 or more in an SVCB/HTTPS record (C34_terminates_partial) and, without parsing the packet, for every packet in which no type/class octets of SVCB/HTTPS are followed by a length 0xFFFC behind a key other than 2, 3, 6, 65535 (C34_terminates_scan_partial). C34_hangs_exactly: the exact set of packets, in any memory, on which the parser does not return (Spec/Wrapped.lean), with no restriction."
 },
 "C35": {
  "note": "Violated: the octet behind the packet can be read (C35_safe_violated), and an alpn SvcParam of length 0xFFFC or more makes the parser read some 65 kB behind it (C35_overread_violated, classes C35_alpn_class, C35_packets_overread). Safety and independence of everything further away than one octet proved when no SVCB/HTTPS record has a SvcParam with a length field of 65532 or more (C35_safe_partial) and for every packet in which a scan finds no alpn head with such a length behind SVCB/HTTPS type and class octets (C35_safe_scan_partial). C35_leaves_exactly and C35_overreads_exactly: the exact set of packets, in any memory, on which the parser leaves the readable memory (Spec/Wrapped.lean), with no restriction."
 },
 "C67": {
  "note": "Completeness in full for well-formed packets. Soundness and completeness for packets anywhere in memory (what is accepted is determined by the packet and the one octet behind it, Spec/Behind.lean), records unique; all except for overlong SvcParams. C35/C40 show the exceptions are real. C67_parse_exactly, C67_records_determined: the exact set of accepted packets and their records in any memory, with no restriction, the wrapped SvcParam sizes included (Spec/Wrapped.lean)."
 },
 "C38": {
  "note": "See C39/C40 for the exceptions."
 },
 "C36": {
  "note": "Full, in the ownership model (Model/Heap.lean); the temporary buffer of the rdata parser is two blocks, its internal growth is not modelled."
 },
 "C37": {
  "note": "Full."
 },
 "C68": {
  "note": "Full."
 },
 "C51": {
  "note": "Full. Beyond it: the decoder is memory safe on texts without '{' (C51_decode_safe); '{' reads past its table (C51_decode_brace_overread)."
 },
 "C52": {
  "note": "Full. The renderer and the scanner never pass an empty string to the coder (a zero-length hash is written as a single 0)."
 },
 "C53": {
  "note": "Full for every buffer of at least one byte; a buffer of size 0 is overrun: C53_hex_violated."
 },
 "C54": {
  "note": "Value proved for all numbers that fit and for all callers; bounds for every non-empty buffer; a buffer of size 0 is underrun: C54_bounds_violated."
 },
 "C55": {
  "note": "Full; inet_pton is glibc's algorithm, modelled in Model/Libc.lean."
 },
 "C56": {
  "note": "Full; inet_pton is glibc's algorithm, modelled in Model/Libc.lean."
 },
 "C47": {
  "note": "Full; bsearch, strcasecmp and strtol are modelled (Model/Tables.lean, Model/Libc.lean). The names and numbers themselves are pinned by the *_registry theorems against independently written IANA blocks (Spec/Registry.lean), so a consistent renumbering of the model's tables would not prove."
 },
 "C48": {
  "note": "Full. The names and numbers themselves are pinned by the *_registry theorems against independently written IANA blocks (Spec/Registry.lean), so a consistent renumbering of the model's tables would not prove."
 },
 "C49": {
  "note": "Full: an exact characterisation. The names and numbers themselves are pinned by the *_registry theorems against independently written IANA blocks (Spec/Registry.lean), so a consistent renumbering of the model's tables would not prove."
 },
 "C50": {
  "note": "Full. The names and numbers themselves are pinned by the *_registry theorems against independently written IANA blocks (Spec/Registry.lean), so a consistent renumbering of the model's tables would not prove."
 },
 "C66": {
  "note": "Full. The names and numbers themselves are pinned by the *_registry theorems against independently written IANA blocks (Spec/Registry.lean), so a consistent renumbering of the model's tables would not prove."
 },
 "C57": {
  "note": "Every operation sequence refines plain sequences, except that extending a buffer by itself reads freed storage once it must grow (C57_self_extend_violated, exact condition in C57_self_extend_partial). What malloc failure does is C115; size_t overflow is not modelled."
 },
 "C58": {
  "note": "Full, for every type, class, rdata and result; also for whole RRsets."
 },
 "C59": {
  "note": "Holds for all listed types but A6 when no label contains a zero octet; C59_a6_violated, C59_a6_address_violated and C59_zero_octet_violated are the failures."
 },
 "C60": {
  "note": "Exact characterisation: undefined behaviour iff a non-empty SOA/MINFO/RP rdata (or PX after two octets) contains no zero octet; C60_violated is a witness. C60_any_octets gives the result code and the resulting octets for every rdata of every lowered type, well-formed or not, and C60_any_octets_undefined says exactly when neither exists."
 },
 "C39": {
  "note": "C39_length_iff: the stored length is the byte count modulo 2^16, so it is right exactly when fewer than 65536 bytes are stored; that holds when rdlen is at most 65282 or the type is none of SIG, NXT, RRSIG, NSEC, SVCB, HTTPS (C39_length_exact_partial). C39_length_violated, C39_message_violated: expanded names can exceed 65535 bytes, already in a message of 65366 octets that the parser accepts (65596 octets of rdata stored with length 60)."
 },
 "C40": {
  "note": "Exact for every rdata without a SvcParam of length 65532 or more, for packets anywhere in memory (C40_schema_mem_partial: a name at the very end of the packet may be completed by the octet behind it); C40_schema_violated shows the 16-bit wrap accepting a non-conforming rdata. C40_schema_exactly: the exact set of accepted rdatas in any memory with no restriction, the wrapped sizes included (Spec/Wrapped.lean)."
 },
 "C42": {
  "note": "Full for known types without overlong SvcParams and with fewer than 65536 octets stored (C39), for unknown types and for classes without layout. C42_svcparam_violation is the exception."
 },
 "C44": {
  "note": "C44_round_trip_iff_partial: an accepted rdata comes back if and only if it is Expressible (Exact in Spec/RdataScan.lean; empty for OPT and for IN types in other classes), apart from the restrictions of C42. Always for types outside lossyTypes and for unknown types. C44_violations: twelve accepted rdatas that do not come back, one per shape."
 },
 "C62": {
  "note": "For packets anywhere in memory, without overlong SvcParams and without rdata of 65536 octets or more (no packet of at most 65305 octets has such rdata: C62_short_partial); otherwise rdata lengths wrap (C39) and the renderer shows truncated rdata."
 },
 "C63": {
  "note": "For files whose lines are shorter than 1279 bytes, do not begin with NUL and whose name text has no unpaired trailing backslash; C63_violations are the exceptions. C63_load_names: any list of printed names is loaded back."
 },
 "C64": {
  "note": "Answer, authority and additional sections under the same hypotheses as C62; C64_question_violation: rendering a question RRset always reads rdatas[0] of an empty array."
 },
 "C65": {
  "note": "Full for NSEC, CSYNC, NSEC3 texts: the bitmap read from any list of type names is the unique canonical bitmap of that set of types."
 },
 "C69": {
  "note": "False in full. C69_undefined_exactly says for every text without NUL, type and class whether its reading is defined (Spec/ScanFaults.lean): undefined are a name that ends in a backslash that escapes nothing, base64 and ech with a `{`, hexadecimal digits or a salt followed by white space where digits are due, and the marker \\# alone; C69_violations are witnesses. C69_ends: no endless loop and no failed assertion for any text. C69_scan_defined_partial is a simple sufficient condition."
 },
 "C70": {
  "note": "Exact: acceptance iff the grammar holds, for both functions, and the code for every rejected text (C70_faults, C70_case_faults over Spec/NameFaults.lean); the finding that labels over 63 octets are accepted is part of the grammar and of C17."
 },
 "C71": {
  "note": "Exact, both directions, for every text."
 },
 "C72": {
  "note": "Exact, both directions, for a text that is one word; text around the word is covered by C73."
 },
 "C73": {
  "note": "Exact, both directions, for every NUL-free text; the grammar in Spec/ScanGrammar spells out where the library is more lenient than the RFCs (missing fields at the end, text after the last field, signs in hexadecimal, lengths modulo 65536), see C73_lenient_violations and C73_table_violations."
 },
 "C74": {
  "note": "Exact, both directions. C74_overread_violations: NS rdata 01 61 makes the call read past the end; RRSIG rdata with an unterminated signer name followed by a zero octet reads the next 65535 octets."
 },
 "C75": {
  "status": "partial",
  "note": "The full claim is false: C75_race_violations. Proved for all schedules: the first call of all is right, every call that begins after it has returned is right, calls one after another are right, no call exceeds its buffer or waits for another. Sequentially consistent accesses; C11 calls the race undefined."
 },
 "C76": {
  "note": "For all paths. Block contents and the growth of ubuf storage are not part of this model (the latter is C57)."
 },
 "C77": {
  "status": "partial",
  "note": "False in full (C77_violations). C77_text_usable_partial: every accepted text that is not irregular in one of five listed ways (Spec/TextStable.lean: label over 63 octets, alpn ending in an empty id or with an id over 255, ech empty or over 189 octets, A6 prefix 128 without the name) and whose rdata is shorter than 65536 octets. C77_generic/C77_other_class/C77_nameless/C77_short_words are unconditional families. C77_usable_exactly_partial: octets are usable if and only if they are Expressible (C44), whatever text gave them; only SvcParams of 65532 octets and more are excluded."
 },
 "C78": {
  "note": "For all packets, all RRsets, both byte orders, any qsort."
 },
 "C79": {
  "note": "Equality of the whole parsed message, stated over the record specification of Spec/Message.lean. C79_same_records: the same for all accepted packets, described exactly (Spec/Wrapped.lean), SvcParams with lengths that wrap and names that borrow the octet behind included."
 },
 "C80": {
  "status": "partial",
  "note": "False in full: C80_overread_violated (the octet just behind an unterminated name is read), C80_chop_violated (chopping the empty name object that chopping gives), second case of C80_reverse (labels that fill the name exactly make wdns_reverse_name write in front of the buffer). With one more readable octet behind the name, count_labels and is_subdomain are exact on all octets; left_chop and reverse_name are classified completely. Every answer of wdns_count_labels, with its code: C80_count_exactly."
 },
 "C81": {
  "note": "C81_decode32_iso: under ISO C the shift data[4] << 28 of an int is undefined for numbers from 2^31 on; on the modelled compilers it gives the right number."
 },
 "C82": {
  "status": "partial",
  "note": "Fails if the storage exceeds 2^32 octets: head * sizeof_elem is computed in 32 bits and two elements share their place (C82_wrap_violated). All other theorems are for every schedule under x86-TSO, with (n-1)*size < 2^32."
 },
 "C83": {
  "status": "partial",
  "note": "Same bound on the storage as C82 (C82_wrap_violated concerns the same address computation). The pthread mutex is modelled as an atomic lock with sequentially consistent critical sections."
 },
 "C84": {
  "note": "The specification is polynomial division over GF(2) (Mathlib polynomials), independent of any shift register; all 4096 table entries are checked by the kernel. The crc32 instruction is modelled after Intel's manual. Misaligned and aliasing loads through uint32_t/uint64_t pointers are taken as octet loads."
 },
 "C85": {
  "status": "partial",
  "note": "False for heap_get on an empty heap: size - 1 wraps and every position is read (C85_get_violated). Everything else is proved for all histories, with no assumption on the comparison function except in C85_first and C85_sorts."
 },
 "C86": {
  "status": "partial",
  "note": "False in one part: an aligned key whose length is not a multiple of four is read to the end of its last word (C86_inside_violated, for every such key; the source comments on it). Proved under the exact hypothesis that this word is readable: the octets after the key have no influence."
 },
 "C87": {
  "status": "partial",
  "note": "False for IPv4 prefix lengths 0 and 1 and IPv6 prefix lengths 0 and 64, where a shift is undefined for every address (C87_violated); proved for all others, all addresses; increments in full."
 },
 "C88": {
  "status": "partial",
  "note": "Proved for all histories in which no set file lists a file twice (C88_balanced, C88_reload, C88_get); false otherwise: the same pointer is unloaded twice (C88_duplicates_violated). A change noted while the file cannot be opened is never read (C88_change_missed)."
 },
 "C89": {
  "status": "proved",
  "note": "C89_exact, C89_refused, C89_round_trip, C89_driver. malloc failure is not modelled; texts of fewer than 2^64 characters."
 },
 "C90": {
  "status": "partial",
  "note": "Proved for every IPv4/UDP frame, cut or padded (C90_payload), and inside the capture for every frame whose total length is at least its header length (C90_inside_partial); violated for every other frame: a length of almost 2^32 is passed (C90_inside_violated, C90_overread_witness). C90_header_reads: the exact captures for which the handler itself reads beyond the capture. C90_prints_partial, C90_dumps_partial, C90_silent: what the handler prints and which frames it dumps. That the protocol is UDP and the IP version are not checked by the program. C90_run, C90_status: a whole run of wdns-dump-pcap (libpcap is a parameter): what is printed, which packets are copied, the counts and the status."
 },
 "C91": {
  "status": "partial",
  "note": "C91_large, C91_prints_partial, C91_exit_partial; false for files with a SvcParam of length field 65532 or more: C91_violated (endless loop on 30 octets; read behind the array)."
 },
 "C92": {
  "status": "partial",
  "note": "Packets without rdata of 65536 octets or more and without a SvcParam of length field 65532 or more, as in C62; outside of that rdata lengths wrap (C39). Lower-casing: rdata without zero octets in labels and not A6, as in C59; C92_downcase_violated shows that for an A6 record the program prints nothing and still exits with 0."
 },
 "C93": {
  "status": "proved",
  "note": "Full for every non-empty search string; an empty one makes the loop endless for every text: C93_empty_violated."
 },
 "C94": {
  "status": "proved",
  "note": "Full; the kernel's read is modelled as giving at most what is asked for."
 },
 "C95": {
  "status": "partial",
  "note": "Arithmetic in full. At most one return per period if a second is a whole number of periods (C95_rate, C95_limit; adjustment off, clock_nanosleep not interrupted); false otherwise: with three events a second five calls return within one second (C95_rate_violated), because ticks restart in every second. For every period below a second: no two calls return in the same period counted anew in each second (C95_rate_any), so at most as many in a clock second as periods begin in it (C95_per_second; the violating run attains this). With the adjustment on, whatever periods below a second it chooses, each call returns in a later period than the call before it (C95_adjusted); the adjustment is undefined if no time has passed since the first call, which needs a rate above 10^9 (C95_adjust_violated)."
 },
 "C96": {
  "status": "proved",
  "note": "Full, for fewer than 2^31 registrations. A thread that never registered reads 0, the number of the first one (C96_unregistered). The mutex is atomic and sequentially consistent."
 },
 "C97": {
  "status": "partial",
  "note": "Printable, one line, quotation marks escaped: full. Injective for sequences without a backslash; false in general: a backslash is not escaped, so every unprintable octet is written like the four characters of its escape (C97_injective_violated)."
 },
 "C98": {
  "status": "proved",
  "note": "Full for permitted operations. The checks ISC_INSIST are empty macros, so misuse is not noticed: C98_misuse_violated (appending the last element again gives an endless chain, appending a list to itself empties it)."
 },
 "C99": {
  "status": "proved",
  "note": "Full for the red-black half of tree.h. The keys of linked elements must not change, and only members may be removed (as the macros require). Mirror-image code is written once with the side as a parameter."
 },
 "C100": {
  "status": "proved",
  "note": "Full for the splay half of tree.h. C100_remove_violated: SPLAY_REMOVE returns its argument, not the element that was taken out, when they are different but equal objects. The keys of linked elements must not change; SPLAY_NEXT needs a member. The amortised cost is not modelled."
 },
 "C101": {
  "status": "proved",
  "note": "Full. Codes that only malloc failure could give are not modelled. C101_rdata_code and C101_packet_code say for every code which inputs get it; they assume that the octet behind the packet is readable (without it, C35_leaves_exactly says what happens). C101_text_overflow and C101_text_parse say which texts wdns_str_to_rdata rejects with which code."
 },
 "C102": {
  "status": "partial",
  "note": "False in the last part but one: a file in active with the name of a newly arrived one is unlinked, even if the rename then fails (C102_destroyed_violated); C102_keeps shows that this is the only loss. Everything else in full. Assumed: the directories are not moved, no hard links between the paths, PATH has no NUL."
 },
 "C103": {
  "status": "partial",
  "note": "Proved for files with one SOA record and no malformed line (C103_init, C103_reads) and for the rejections (C103_init_rejects). False elsewhere: a file without records is an endless loop, a failing open leaks the object, an $ORIGIN line in front of the SOA record leaks its name, a second SOA record looks like the end of the file but is not, zonefile_get_serial aborts once the SOA record has been read, the shell command contains the file name unquoted. libldns itself is not part of this code base and is assumed to follow its documentation."
 },
 "C104": {
  "status": "partial",
  "note": "In full, except: atomic64_zero returns an int, so that a count of 2^31 or more is lost (C104_zero64_violated; exact condition in C104_zero64_partial), and atomic_ptr_set can fail when another thread interferes (C104_ptr_fails_violated). The compiler's __sync functions are assumed to be atomic."
 },
 "C105": {
  "status": "partial",
  "note": "The accepted texts are exactly the numbers and the empty text (C105_getenv_partial). False: the empty text counts as 0, negative and too large numbers are accepted, the value is overwritten if the text is rejected."
 },
 "C106": {
  "status": "proved",
  "note": "In full. If the C library has le32toh, that is used and assumed to do the same."
 },
 "C107": {
  "status": "proved",
  "note": "In full. Not counted: structs and pointer arrays (a constant per record, at most one record per five octets). An example has records that take 1530 octets for 16, 95.6 each. No hypothesis about SvcParams is needed. Texts (C107_rdata_text, C107_rr_text, C107_section_text) are bounded for the library's own objects, whose blocks have the noted size, when nothing behind the rdata is read (C74); every parsed record is of this kind, so that C107_parsed_section_text and C107_message_text have no such hypothesis."
 },
 "C108": {
  "status": "partial",
  "note": "Termination is proved for every input (C108_terminates). Memory safety is proved under four hypotheses (C108_safe_partial), each of which is shown necessary: using the last option of an array reads behind ARGV_LAST (C108_last_violated, for every array and every such option); -ooo with more option characters than arguments, or an argument file, writes behind the queue (C108_cluster_violated for every length, C108_file_violated); argc = 0 (C108_empty_violated); an array entry with a NULL variable (C108_null_violated); values outside the range of binary, octal, hexadecimal, size and counter types (C108_range_violated). An argument file that names itself is opened exponentially often (C108_files_violated). The messages, the usage text and the exits are modelled separately (C121 - C123, C126). Not modelled: malloc failure in argv.c."
 },
 "C109": {
  "status": "partial",
  "note": "The alternatives are proved for options; arguments taken by position (ARGV_MAND, ARGV_MAYBE) are not checked against alternatives, shown by C109_positional_violated."
 },
 "C111": {
  "status": "proved",
  "note": "In full, undefined exactly from 2^31 on."
 },
 "C112": {
  "status": "proved",
  "note": "In full."
 },
 "C110": {
  "status": "partial",
  "note": "Proved for options written one by one or together in one word without '=' and negative numbers as values (C110_meaning over Spec.Written, C110_default, C110_text), argv_close_enable_b on and argv_last_toggle_b off (the defaults); environment words are reduced to this by C112_env. False for a long name with which another begins: rejected although written in full (C110_prefix_violated), and for several short options in one word with '=': all of them get the value (C110_cluster_violated)."
 },
 "C113": {
  "status": "proved",
  "note": "For the lines of C110 (Spec.Written: options one by one or together, negative numbers; no environment words, argv_close_enable_b on, argv_last_toggle_b off): C113_accepted is an equivalence; C113_wrong, C113_missing cover the words that are no line of that kind."
 },
 "C114": {
  "status": "partial",
  "note": "C114_value, C114_variable, C114_flag, C114_counter hold for all texts that denote a value (floating point is a parameter of the model). False for the other texts: words for numbers and numbers out of range are accepted (C114_checked_violated)."
 },
 "C115": {
  "status": "partial",
  "note": "Returns are right in full (C115_parse, C115_deserialize, C115_name, C115_text, C115_render, C115_print, C115_load_names; the last one can also report wdns_res_failure because the file could not be opened), and without undefined behaviour for parsing, deserializing and names. False for text of rdata: malloc, calloc and strdup are unchecked in str_to_rdata_ubuf.c and bytes_to_ubuf_base64 (C115_text_violated, C115_render_violated); for types without such fields it holds (C115_text_safe_partial, C115_render_safe_partial). Which request enlarges a ubuf is left open; passing NULL to the base32 decoder counts as undefined even if it rejects its input first. C115_local_*: refusals before or after a call change nothing: if no request of the moments that the call takes with enough memory is refused, its result and its blocks are those it has with enough memory. C115_*_granted: no refusal goes unnoticed, that is, every request made by a call that returns was granted (for writing: types without base64 text and SvcParams; C115_unnoticed is a harmless exception)."
 },
 "C116": {
  "status": "partial",
  "note": "C116_shown_partial, C116_every, C116_unknown, C116_inside, C116_plain_partial, C116_array_partial, C116_entry, C116_empty_array, C116_back_partial, C116_back_text hold for all values and buffers. False: characters and strings get no NUL (C116_terminated_violated), special characters are all shown as a backslash and a NUL (C116_escape_violated), of the octal digits of an unprintable character the last is lost (C116_octal_violated), 0 overruns a buffer of one octet (C116_one_octet_violated), unsigned sizes from 2^63 on are negative (C116_negative_violated); binary numbers are read back as 0 (C116_binary_violated), negative octal and hexadecimal ones overflow (C116_negative_base_violated), unsigned long from 2^63 on are read as 2^63 - 1 (C116_unsigned_violated)."
 },
 "C117": {
  "note": "C117_word (both directions), C117_first, C117_else. A failing malloc in process_env and the messages for wrong words are not modelled."
 },
 "C118": {
  "status": "partial",
  "note": "C118_address_partial holds if the address of the very name in the array is given. False for the same name at another address: the answer is always no (C118_name_violated)."
 },
 "C119": {
  "status": "partial",
  "note": "C119_accepted: after success, for all defaults. After a refusal only if the defaults are NULL or from malloc (C119_refused_partial): otherwise `-s` without its value makes the clean-up free the default (C119_refused_violated). A second clean-up frees the strings again (C119_twice_violated) unless only arrays hold strings (C119_twice_partial). Missing: strings replaced by a later value of the same option are never given back; the model does not keep them."
 },
 "C120": {
  "status": "partial",
  "note": "C120_message_partial and C120_section_partial: for packets whose rdata can be expressed in text (Spec.Expressible: exactly those that come back from their text, C44). C120_options_partial: the EDNS options, with the hypotheses of C62 only. Missing because the code violates it (C120_message_violated, C120_options_violated): the reserved bit of the header, the EDNS flags other than DO, rdata that cannot be expressed, e.g. an address in class CH, unprintable octets of extended errors, zero octets of client subnets, and what follows a malformed option."
 },
 "C121": {
  "status": "partial",
  "note": "C121_long_partial (exact text), C121_long_width_partial, C121_line, C121_line_only, C121_short (exact words and widths), C121_choice. False: an option with a value and only a long name of 30 octets or more makes the line too long, because a negative precision counts as none (C121_width_violated); options that have only a long name are missing from the short message or shown as a NUL (C121_short_violated)."
 },
 "C122": {
  "status": "partial",
  "note": "C122_display_partial: for values with a text (C116) and arguments by position with a label of at most 33 octets. C122_words. False: the text set for --help is never written, --help is taken as --usage (C122_help_violated)."
 },
 "C123": {
  "status": "partial",
  "note": "C123_explained: nothing is written for an accepted line; for a refused one the text is not empty and true, the missing options and values exactly. C123_unknown_long, C123_unknown_short: every unknown option (in front of --) is named. False: an option without a short name that is given twice is named by an octet 0 (C123_named_violated); an array of counters is called an array of boolean values (C123_counter_violated)."
 },
 "C124": {
  "status": "proved",
  "note": "C124_subdomain_chop, C124_subdomain_reverse, C124_subdomain_downcase, C124_text_downcase, C124_reverse_downcase."
 },
 "C125": {
  "status": "partial",
  "note": "C125_order, C125_digits, C125_text. False: the macro WDNS_LIBRARY_VERSION_NUMBER has no parentheses, so it is not a number inside a larger expression (C125_macro_violated)."
 },
 "C126": {
  "status": "partial",
  "note": "C126_returns, C126_accepted, C126_exits, C126_asked, C126_stream, C126_texts. False: argv_process_no_env does not call argv_startup, so that, called first, it writes its messages to the address 1 (C126_first_violated)."
 },
 "C127": {
  "status": "partial",
  "note": "C127_domain_text: the exact text and return value for all octets behind which one more is readable, and when the buffer overflows; C127_domain_fits: 1025 octets suffice for 255 octets; C127_domain_leaves: exactly when the octet behind is read. False in full: C127_domain_violated (the octet behind the object is read without need, and a label that is cut off counts in full in the return value)."
 },
 "C128": {
  "status": "proved",
  "note": "C128_cut (any memory), C128_cut_alone, C128_appended: in full, without restriction on the packets. C128_borrowed shows why the second part supposes nothing readable behind the packet."
 },
 "C129": {
  "status": "proved",
  "note": "C129_order, C129_count, C129_stored: in full."
 },
 "C130": {
  "status": "proved",
  "note": "C130_exact, C130_release, C130_nothing_left, C130_independent: in full. Allocations succeed (my_malloc aborts otherwise)."
 },
 "C131": {
  "status": "proved",
  "note": "C131_alike: in full. C131_stored: for RRsets whose rdata names can be lower-cased (C59), as stated."
 },
 "C132": {
  "status": "proved",
  "note": "C132_same, C132_message, C132_injective: in full."
 }
}