{
 "claims": [
  {
   "property": "C01",
   "status": "proved",
   "theorems": [
    "Wdns.C01_unpacked_wellformed"
   ],
   "note": "Full statement, for every message and offset."
  },
  {
   "property": "C02",
   "status": "partial",
   "theorems": [
    "Wdns.C02_unpack_complete",
    "Wdns.C02_unpack_exact_partial",
    "Wdns.C02_unpack_exact_overread",
    "Wdns.C02_unpack_exact_violated",
    "Wdns.C02_unpack_faults"
   ],
   "note": "Completeness is proved in full. Soundness holds except that the code may read one byte at the end of the message (eop); C02_unpack_exact_violated is the witness, C02_unpack_exact_overread says exactly what happens. C02_unpack_faults: the code for every rejected name (Spec/UnpackFaults.lean)."
  },
  {
   "property": "C03",
   "status": "proved",
   "theorems": [
    "Wdns.C03_unpack_terminates"
   ],
   "note": "Full."
  },
  {
   "property": "C04",
   "status": "partial",
   "theorems": [
    "Wdns.C04_unpack_leaves",
    "Wdns.C04_unpack_safe_partial",
    "Wdns.C04_unpack_safe_violated",
    "Wdns.C04_unpack_inside"
   ],
   "note": "Writes bounded by 255 proved in full; reads are inside [p, eop], where the byte at eop itself can be read: C04_unpack_safe_violated. C04_unpack_inside: safe whenever the byte after the packet is readable. C04_unpack_leaves: exactly which names lead out of a message with nothing readable behind it."
  },
  {
   "property": "C05",
   "status": "proved",
   "theorems": [
    "Wdns.C05_forward_pointer_rejected"
   ],
   "note": "Full."
  },
  {
   "property": "C06",
   "status": "proved",
   "theorems": [
    "Wdns.C06_copy_faults",
    "Wdns.C06_uncompressed_verbatim",
    "Wdns.C06_copy_sound",
    "Wdns.C06_copy_rejects_pointer",
    "Wdns.C06_copy_returns"
   ],
   "note": "Full. Which code a refused copy gets, for every refused copy: C06_copy_faults."
  },
  {
   "property": "C07",
   "status": "proved",
   "theorems": [
    "Wdns.C07_skip_bounded",
    "Wdns.C07_skip_overread",
    "Wdns.C07_skip_exactly",
    "Wdns.C07_skip_leaves"
   ],
   "note": "Cursor bounds proved in full. C07_skip_overread records that *eod itself may be read by the code. C07_skip_exactly: where it stops, for all octets; C07_skip_leaves: exactly when the octet behind the data is read."
  },
  {
   "property": "C08",
   "status": "proved",
   "theorems": [
    "Wdns.C08_skip_agrees",
    "Wdns.C08_skip_agrees_unpack"
   ],
   "note": "Full."
  },
  {
   "property": "C09",
   "status": "partial",
   "theorems": [
    "Wdns.C09_len_exact_partial",
    "Wdns.C09_len_violated",
    "Wdns.C09_len_exactly"
   ],
   "note": "The code reports success with olen+1 on an unterminated name: C09_len_violated. The answer for every buffer: C09_len_exactly."
  },
  {
   "property": "C10",
   "status": "proved",
   "theorems": [
    "Wdns.C10_count_labels"
   ],
   "note": ""
  },
  {
   "property": "C11",
   "status": "proved",
   "theorems": [
    "Wdns.C11_left_chop",
    "Wdns.C11_chop_reaches_root",
    "Wdns.C11_result_is_tail"
   ],
   "note": ""
  },
  {
   "property": "C12",
   "status": "proved",
   "theorems": [
    "Wdns.C12_is_subdomain",
    "Wdns.C12_is_subdomain_order"
   ],
   "note": ""
  },
  {
   "property": "C13",
   "status": "proved",
   "theorems": [
    "Wdns.C13_reverse",
    "Wdns.C13_reverse_twice",
    "Wdns.C13_reverse_short_buffer_violated"
   ],
   "note": "Full for well-formed names with a buffer of the name's length. C13_reverse_short_buffer_violated records that a buffer one octet too small is overrun instead of reported."
  },
  {
   "property": "C14",
   "status": "proved",
   "theorems": [
    "Wdns.C14_downcase",
    "Wdns.C14_downcase_name",
    "Wdns.C14_downcase_equal_iff",
    "Wdns.C14_fold_ascii"
   ],
   "note": ""
  },
  {
   "property": "C15",
   "status": "proved",
   "theorems": [
    "Wdns.C15_name_text_round_trip"
   ],
   "note": ""
  },
  {
   "property": "C16",
   "status": "proved",
   "theorems": [
    "Wdns.C16_name_text",
    "Wdns.C16_name_text_injective"
   ],
   "note": ""
  },
  {
   "property": "C17",
   "status": "partial",
   "theorems": [
    "Wdns.C17_parsed_wellformed_partial",
    "Wdns.C17_parsed_wellformed_violated"
   ],
   "note": "No 63-octet check in the code: C17_parsed_wellformed_violated."
  },
  {
   "property": "C18",
   "status": "partial",
   "theorems": [
    "Wdns.C18_scan_exactly",
    "Wdns.C18_scan_safe_partial",
    "Wdns.C18_scan_writes",
    "Wdns.C18_scan_safe_violated"
   ],
   "note": "Writes never exceed the block (full). Reads stay inside except when the text ends in an unpaired backslash: C18_scan_safe_violated; C18_scan_exactly gives all such texts."
  },
  {
   "property": "C19",
   "status": "partial",
   "theorems": [
    "Wdns.C19_scan_same_up_to_case",
    "Wdns.C19_scan_downcase_partial",
    "Wdns.C19_scan_downcase_violated",
    "Wdns.C19_long_label_violated"
   ],
   "note": "Equality up to letter case and same failures: full. Exact equality for text without backslash; escaped capitals are kept by the code: C19_scan_downcase_violated. A label of 65 to 90 characters has its length octet changed by downcasing: C19_long_label_violated."
  },
  {
   "property": "C20",
   "status": "proved",
   "theorems": [
    "Wdns.C20_trailing_dot",
    "Wdns.C20_empty_label_rejected"
   ],
   "note": ""
  },
  {
   "property": "C21",
   "status": "proved",
   "theorems": [
    "Wdns.C21_compare",
    "Wdns.C21_compare_names"
   ],
   "note": ""
  },
  {
   "property": "C22",
   "status": "proved",
   "theorems": [
    "Wdns.C22_sorted",
    "Wdns.C22_sort_canonical",
    "Wdns.C22_sort_idempotent",
    "Wdns.C22_sort_defined"
   ],
   "note": ""
  },
  {
   "property": "C23",
   "status": "proved",
   "theorems": [
    "Wdns.C23_serialize_round_trip"
   ],
   "note": ""
  },
  {
   "property": "C24",
   "status": "proved",
   "theorems": [
    "Wdns.C24_serialized_size"
   ],
   "note": ""
  },
  {
   "property": "C25",
   "status": "proved",
   "theorems": [
    "Wdns.C25_deserialize"
   ],
   "note": ""
  },
  {
   "property": "C26",
   "status": "proved",
   "theorems": [
    "Wdns.C26_message_grouping",
    "Wdns.C26_grouping"
   ],
   "note": ""
  },
  {
   "property": "C27",
   "status": "proved",
   "theorems": [
    "Wdns.C27_min_ttl"
   ],
   "note": ""
  },
  {
   "property": "C28",
   "status": "proved",
   "theorems": [
    "Wdns.C28_message_questions",
    "Wdns.C28_questions"
   ],
   "note": ""
  },
  {
   "property": "C29",
   "status": "proved",
   "theorems": [
    "Wdns.C29_short_rejected",
    "Wdns.C29_header",
    "Wdns.C29_flag_macros",
    "Wdns.C29_big_endian",
    "Wdns.C29_big_endian32"
   ],
   "note": ""
  },
  {
   "property": "C30",
   "status": "proved",
   "theorems": [
    "Wdns.C30_section_counts",
    "Wdns.C30_total_count"
   ],
   "note": ""
  },
  {
   "property": "C31",
   "status": "proved",
   "theorems": [
    "Wdns.C31_owner_names"
   ],
   "note": ""
  },
  {
   "property": "C32",
   "status": "proved",
   "theorems": [
    "Wdns.C32_edns",
    "Wdns.C32_edns_accepted"
   ],
   "note": "Full: for every grammatical packet (whatever follows it in memory) and for every accepted packet."
  },
  {
   "property": "C33",
   "status": "partial",
   "theorems": [
    "Wdns.C33_ext_rcode_partial",
    "Wdns.C33_actual_rcode",
    "Wdns.C33_ext_rcode_violated"
   ],
   "note": "The code shifts the upper RCODE bits to bit 8 instead of bit 4: C33_ext_rcode_violated; C33_actual_rcode gives the value it computes."
  },
  {
   "property": "C34",
   "status": "partial",
   "theorems": [
    "Wdns.C34_hangs_exactly",
    "Wdns.C34_terminates_partial",
    "Wdns.C34_terminates_violated",
    "Wdns.C34_hang_class",
    "Wdns.C34_terminates_scan_partial",
    "Wdns.C34_packets_hang"
   ],
   "note": "Violated: C34_terminates_violated is a packet, C34_hang_class the class of rdatas, C34_packets_hang the class of packets (first record SVCB/HTTPS with proper SvcParams and then one of length 0xFFFC and key 0, 4, 5 or above 6). Termination proved for every packet without a SvcParam of length field 65532 or more in an SVCB/HTTPS record (C34_terminates_partial) and, without parsing the packet, for every packet in which no type/class octets of SVCB/HTTPS are followed by a length 0xFFFC behind a key other than 2, 3, 6, 65535 (C34_terminates_scan_partial). C34_hangs_exactly: the exact set of packets, in any memory, on which the parser does not return (Spec/Wrapped.lean), with no restriction."
  },
  {
   "property": "C35",
   "status": "partial",
   "theorems": [
    "Wdns.C35_leaves_exactly",
    "Wdns.C35_overreads_exactly",
    "Wdns.C35_safe_partial",
    "Wdns.C35_safe_violated",
    "Wdns.C35_safe_scan_partial",
    "Wdns.C35_alpn_class",
    "Wdns.C35_packets_overread",
    "Wdns.C35_overread_violated"
   ],
   "note": "Violated: the octet behind the packet can be read (C35_safe_violated), and an alpn SvcParam of length 0xFFFC or more makes the parser read some 65 kB behind it (C35_overread_violated, classes C35_alpn_class, C35_packets_overread). Safety and independence of everything further away than one octet proved when no SVCB/HTTPS record has a SvcParam with a length field of 65532 or more (C35_safe_partial) and for every packet in which a scan finds no alpn head with such a length behind SVCB/HTTPS type and class octets (C35_safe_scan_partial). C35_leaves_exactly and C35_overreads_exactly: the exact set of packets, in any memory, on which the parser leaves the readable memory (Spec/Wrapped.lean), with no restriction."
  },
  {
   "property": "C36",
   "status": "proved",
   "theorems": [
    "Wdns.C36_failure_frees_everything",
    "Wdns.C36_success_owns_exactly",
    "Wdns.C36_same_result"
   ],
   "note": "Full, in the ownership model (Model/Heap.lean); the temporary buffer of the rdata parser is two blocks, its internal growth is not modelled."
  },
  {
   "property": "C37",
   "status": "proved",
   "theorems": [
    "Wdns.C37_parse_then_clear",
    "Wdns.C37_clear_again",
    "Wdns.C37_clear_after_failure"
   ],
   "note": "Full."
  },
  {
   "property": "C38",
   "status": "proved",
   "theorems": [
    "Wdns.C38_uncompressed_verbatim",
    "Wdns.C38_parse_idempotent"
   ],
   "note": "See C39/C40 for the exceptions."
  },
  {
   "property": "C39",
   "status": "partial",
   "theorems": [
    "Wdns.C39_message_violated",
    "Wdns.C39_length_iff",
    "Wdns.C39_length_exact_partial",
    "Wdns.C39_length_violated"
   ],
   "note": "C39_length_iff: the stored length is the byte count modulo 2^16, so it is right exactly when fewer than 65536 bytes are stored; that holds when rdlen is at most 65282 or the type is none of SIG, NXT, RRSIG, NSEC, SVCB, HTTPS (C39_length_exact_partial). C39_length_violated, C39_message_violated: expanded names can exceed 65535 bytes, already in a message of 65366 octets that the parser accepts (65596 octets of rdata stored with length 60)."
  },
  {
   "property": "C40",
   "status": "partial",
   "theorems": [
    "Wdns.C40_schema_mem_partial",
    "Wdns.C40_schema_exactly",
    "Wdns.C40_layouts",
    "Wdns.C40_schema_exact_partial",
    "Wdns.C40_stored_conforms_partial",
    "Wdns.C40_schema_violated"
   ],
   "note": "Exact for every rdata without a SvcParam of length 65532 or more, for packets anywhere in memory (C40_schema_mem_partial: a name at the very end of the packet may be completed by the octet behind it); C40_schema_violated shows the 16-bit wrap accepting a non-conforming rdata. C40_schema_exactly: the exact set of accepted rdatas in any memory with no restriction, the wrapped sizes included (Spec/Wrapped.lean)."
  },
  {
   "property": "C41",
   "status": "proved",
   "theorems": [
    "Wdns.C41_opaque_verbatim"
   ],
   "note": ""
  },
  {
   "property": "C42",
   "status": "partial",
   "theorems": [
    "Wdns.C42_known_partial",
    "Wdns.C42_svcparam_violation",
    "Wdns.C42_generic",
    "Wdns.C42_other_class"
   ],
   "note": "Full for known types without overlong SvcParams and with fewer than 65536 octets stored (C39), for unknown types and for classes without layout. C42_svcparam_violation is the exception."
  },
  {
   "property": "C43",
   "status": "proved",
   "theorems": [
    "Wdns.C43_ascii_codes",
    "Wdns.C43_printable"
   ],
   "note": ""
  },
  {
   "property": "C44",
   "status": "partial",
   "theorems": [
    "Wdns.C44_round_trip_partial",
    "Wdns.C44_round_trip_plain",
    "Wdns.C44_round_trip_unknown",
    "Wdns.C44_violations",
    "Wdns.C44_round_trip_iff_partial"
   ],
   "note": "C44_round_trip_iff_partial: an accepted rdata comes back if and only if it is Expressible (Exact in Spec/RdataScan.lean; empty for OPT and for IN types in other classes), apart from the restrictions of C42. Always for types outside lossyTypes and for unknown types. C44_violations: twelve accepted rdatas that do not come back, one per shape."
  },
  {
   "property": "C45",
   "status": "proved",
   "theorems": [
    "Wdns.C45_scan_buffer"
   ],
   "note": ""
  },
  {
   "property": "C46",
   "status": "proved",
   "theorems": [
    "Wdns.C46_generic_round_trip"
   ],
   "note": ""
  },
  {
   "property": "C47",
   "status": "proved",
   "theorems": [
    "Wdns.C47_exact",
    "Wdns.C47_unique",
    "Wdns.C47_registry",
    "Wdns.C47_reads_registry",
    "Wdns.C47_named_type",
    "Wdns.C47_generic_type",
    "Wdns.C47_distinct",
    "Wdns.C47_str_to_rrtype_total"
   ],
   "note": "Full; bsearch, strcasecmp and strtol are modelled (Model/Tables.lean, Model/Libc.lean). The names and numbers themselves are pinned by the *_registry theorems against independently written IANA blocks (Spec/Registry.lean), so a consistent renumbering of the model's tables would not prove."
  },
  {
   "property": "C48",
   "status": "proved",
   "theorems": [
    "Wdns.C48_exact",
    "Wdns.C48_unique",
    "Wdns.C48_registry",
    "Wdns.C48_reads_registry",
    "Wdns.C48_named_class",
    "Wdns.C48_generic_class",
    "Wdns.C48_distinct"
   ],
   "note": "Full. The names and numbers themselves are pinned by the *_registry theorems against independently written IANA blocks (Spec/Registry.lean), so a consistent renumbering of the model's tables would not prove."
  },
  {
   "property": "C49",
   "status": "proved",
   "theorems": [
    "Wdns.C49_registry",
    "Wdns.C49_reads_registry",
    "Wdns.C49_rcode_iff",
    "Wdns.C49_rcode_failure"
   ],
   "note": "Full: an exact characterisation. The names and numbers themselves are pinned by the *_registry theorems against independently written IANA blocks (Spec/Registry.lean), so a consistent renumbering of the model's tables would not prove."
  },
  {
   "property": "C50",
   "status": "proved",
   "theorems": [
    "Wdns.C50_exact",
    "Wdns.C50_unique",
    "Wdns.C50_registry",
    "Wdns.C50_svcparamkey",
    "Wdns.C50_svcparamkey_fits"
   ],
   "note": "Full. The names and numbers themselves are pinned by the *_registry theorems against independently written IANA blocks (Spec/Registry.lean), so a consistent renumbering of the model's tables would not prove."
  },
  {
   "property": "C51",
   "status": "proved",
   "theorems": [
    "Wdns.C51_base64_round_trip",
    "Wdns.C51_decode_safe",
    "Wdns.C51_decode_exact",
    "Wdns.C51_decode_brace_overread"
   ],
   "note": "Full. Beyond it: the decoder is memory safe on texts without '{' (C51_decode_safe); '{' reads past its table (C51_decode_brace_overread)."
  },
  {
   "property": "C52",
   "status": "proved",
   "theorems": [
    "Wdns.C52_base32_text",
    "Wdns.C52_base32_bounded",
    "Wdns.C52_decode_exact",
    "Wdns.C52_base32_round_trip"
   ],
   "note": "Full. The renderer and the scanner never pass an empty string to the coder (a zero-length hash is written as a single 0)."
  },
  {
   "property": "C53",
   "status": "partial",
   "theorems": [
    "Wdns.C53_hex_partial",
    "Wdns.C53_hex_violated",
    "Wdns.C53_uint16_hex"
   ],
   "note": "Full for every buffer of at least one byte; a buffer of size 0 is overrun: C53_hex_violated."
  },
  {
   "property": "C54",
   "status": "partial",
   "theorems": [
    "Wdns.C54_decimal",
    "Wdns.C54_decimal_callers",
    "Wdns.C54_decimal_unique",
    "Wdns.C54_bounds_partial",
    "Wdns.C54_bounds_violated"
   ],
   "note": "Value proved for all numbers that fit and for all callers; bounds for every non-empty buffer; a buffer of size 0 is underrun: C54_bounds_violated."
  },
  {
   "property": "C55",
   "status": "proved",
   "theorems": [
    "Wdns.C55_inet4",
    "Wdns.C55_inet4_small"
   ],
   "note": "Full; inet_pton is glibc's algorithm, modelled in Model/Libc.lean."
  },
  {
   "property": "C56",
   "status": "proved",
   "theorems": [
    "Wdns.C56_inet6",
    "Wdns.C56_inet6_text",
    "Wdns.C56_longest_run",
    "Wdns.C56_inet6_injective",
    "Wdns.C56_inet6_small"
   ],
   "note": "Full; inet_pton is glibc's algorithm, modelled in Model/Libc.lean."
  },
  {
   "property": "C57",
   "status": "partial",
   "theorems": [
    "Wdns.C57_refines_partial",
    "Wdns.C57_self_extend_violated",
    "Wdns.C57_self_extend_partial",
    "Wdns.C57_reserve",
    "Wdns.C57_assertions"
   ],
   "note": "Every operation sequence refines plain sequences, except that extending a buffer by itself reads freed storage once it must grow (C57_self_extend_violated, exact condition in C57_self_extend_partial). What malloc failure does is C115; size_t overflow is not modelled."
  },
  {
   "property": "C58",
   "status": "proved",
   "theorems": [
    "Wdns.C58_untouched",
    "Wdns.C58_case_only",
    "Wdns.C58_idempotent",
    "Wdns.C58_rrset",
    "Wdns.C58_rrset_error"
   ],
   "note": "Full, for every type, class, rdata and result; also for whole RRsets."
  },
  {
   "property": "C59",
   "status": "partial",
   "theorems": [
    "Wdns.C59_lowers_names_partial",
    "Wdns.C59_parsed_partial",
    "Wdns.C59_a6_violated",
    "Wdns.C59_a6_address_violated",
    "Wdns.C59_zero_octet_violated"
   ],
   "note": "Holds for all listed types but A6 when no label contains a zero octet; C59_a6_violated, C59_a6_address_violated and C59_zero_octet_violated are the failures."
  },
  {
   "property": "C60",
   "status": "partial",
   "theorems": [
    "Wdns.C60_memory_safe_partial",
    "Wdns.C60_violated",
    "Wdns.C60_any_octets",
    "Wdns.C60_any_octets_undefined"
   ],
   "note": "Exact characterisation: undefined behaviour iff a non-empty SOA/MINFO/RP rdata (or PX after two octets) contains no zero octet; C60_violated is a witness. C60_any_octets gives the result code and the resulting octets for every rdata of every lowered type, well-formed or not, and C60_any_octets_undefined says exactly when neither exists."
  },
  {
   "property": "C61",
   "status": "proved",
   "theorems": [
    "Wdns.C61_options",
    "Wdns.C61_no_options",
    "Wdns.C61_subnet4"
   ],
   "note": ""
  },
  {
   "property": "C62",
   "status": "partial",
   "theorems": [
    "Wdns.C62_message_text_partial",
    "Wdns.C62_short_partial",
    "Wdns.C62_section_text_partial"
   ],
   "note": "For packets anywhere in memory, without overlong SvcParams and without rdata of 65536 octets or more (no packet of at most 65305 octets has such rdata: C62_short_partial); otherwise rdata lengths wrap (C39) and the renderer shows truncated rdata."
  },
  {
   "property": "C63",
   "status": "partial",
   "theorems": [
    "Wdns.C63_load_partial",
    "Wdns.C63_lines",
    "Wdns.C63_load_names",
    "Wdns.C63_violations",
    "Wdns.C63_unopened"
   ],
   "note": "For files whose lines are shorter than 1279 bytes, do not begin with NUL and whose name text has no unpaired trailing backslash; C63_violations are the exceptions. C63_load_names: any list of printed names is loaded back."
  },
  {
   "property": "C64",
   "status": "partial",
   "theorems": [
    "Wdns.C64_rrset_text_partial",
    "Wdns.C64_question_violation"
   ],
   "note": "Answer, authority and additional sections under the same hypotheses as C62; C64_question_violation: rendering a question RRset always reads rdatas[0] of an empty array."
  },
  {
   "property": "C65",
   "status": "proved",
   "theorems": [
    "Wdns.C65_nsec",
    "Wdns.C65_csync",
    "Wdns.C65_nsec3",
    "Wdns.C65_order_irrelevant"
   ],
   "note": "Full for NSEC, CSYNC, NSEC3 texts: the bitmap read from any list of type names is the unique canonical bitmap of that set of types."
  },
  {
   "property": "C66",
   "status": "proved",
   "theorems": [
    "Wdns.C66_registry",
    "Wdns.C66_res_distinct",
    "Wdns.C66_opcode",
    "Wdns.C66_opcode_distinct"
   ],
   "note": "Full. The names and numbers themselves are pinned by the *_registry theorems against independently written IANA blocks (Spec/Registry.lean), so a consistent renumbering of the model's tables would not prove."
  },
  {
   "property": "C67",
   "status": "partial",
   "theorems": [
    "Wdns.C67_records_alone",
    "Wdns.C67_parse_sound_mem_partial",
    "Wdns.C67_parse_complete_mem_partial",
    "Wdns.C67_records_unique_partial",
    "Wdns.C67_parse_exactly",
    "Wdns.C67_records_determined",
    "Wdns.C67_parse_complete",
    "Wdns.C67_parse_sound_partial"
   ],
   "note": "Completeness in full for well-formed packets. Soundness and completeness for packets anywhere in memory (what is accepted is determined by the packet and the one octet behind it, Spec/Behind.lean), records unique; all except for overlong SvcParams. C35/C40 show the exceptions are real. C67_parse_exactly, C67_records_determined: the exact set of accepted packets and their records in any memory, with no restriction, the wrapped SvcParam sizes included (Spec/Wrapped.lean)."
  },
  {
   "property": "C68",
   "status": "proved",
   "theorems": [
    "Wdns.C68_deserialize_failure",
    "Wdns.C68_deserialize_success",
    "Wdns.C68_deserialize_same_result"
   ],
   "note": "Full."
  },
  {
   "property": "C69",
   "status": "partial",
   "theorems": [
    "Wdns.C69_undefined_exactly",
    "Wdns.C69_ends",
    "Wdns.C69_scan_defined_partial",
    "Wdns.C69_violations"
   ],
   "note": "False in full. C69_undefined_exactly says for every text without NUL, type and class whether its reading is defined (Spec/ScanFaults.lean): undefined are a name that ends in a backslash that escapes nothing, base64 and ech with a `{`, hexadecimal digits or a salt followed by white space where digits are due, and the marker \\# alone; C69_violations are witnesses. C69_ends: no endless loop and no failed assertion for any text. C69_scan_defined_partial is a simple sufficient condition."
  },
  {
   "property": "C70",
   "status": "proved",
   "theorems": [
    "Wdns.C70_case_faults",
    "Wdns.C70_faults",
    "Wdns.C70_name_case_exact",
    "Wdns.C70_name_exact",
    "Wdns.C70_name_unique"
   ],
   "note": "Exact: acceptance iff the grammar holds, for both functions, and the code for every rejected text (C70_faults, C70_case_faults over Spec/NameFaults.lean); the finding that labels over 63 octets are accepted is part of the grammar and of C17."
  },
  {
   "property": "C71",
   "status": "proved",
   "theorems": [
    "Wdns.C71_txt_exact",
    "Wdns.C71_txt_unique"
   ],
   "note": "Exact, both directions, for every text."
  },
  {
   "property": "C72",
   "status": "proved",
   "theorems": [
    "Wdns.C72_ipv4_exact",
    "Wdns.C72_ipv6_exact",
    "Wdns.C72_ipv6_length",
    "Wdns.C72_unique"
   ],
   "note": "Exact, both directions, for a text that is one word; text around the word is covered by C73."
  },
  {
   "property": "C73",
   "status": "proved",
   "theorems": [
    "Wdns.C73_rdata_exact",
    "Wdns.C73_generic_exact",
    "Wdns.C73_other_class",
    "Wdns.C73_unique",
    "Wdns.C73_table",
    "Wdns.C73_table_violations",
    "Wdns.C73_lenient_violations"
   ],
   "note": "Exact, both directions, for every NUL-free text; the grammar in Spec/ScanGrammar spells out where the library is more lenient than the RFCs (missing fields at the end, text after the last field, signs in hexadecimal, lengths modulo 65536), see C73_lenient_violations and C73_table_violations."
  },
  {
   "property": "C74",
   "status": "proved",
   "theorems": [
    "Wdns.C74_defined",
    "Wdns.C74_no_names",
    "Wdns.C74_marker",
    "Wdns.C74_conforming",
    "Wdns.C74_overread_violations"
   ],
   "note": "Exact, both directions. C74_overread_violations: NS rdata 01 61 makes the call read past the end; RRSIG rdata with an unterminated signer name followed by a zero octet reads the next 65535 octets."
  },
  {
   "property": "C75",
   "status": "partial",
   "theorems": [
    "Wdns.C75_first_call_partial",
    "Wdns.C75_after_first_partial",
    "Wdns.C75_wait_free",
    "Wdns.C75_bounded",
    "Wdns.C75_serial",
    "Wdns.C75_race_violations"
   ],
   "note": "The full claim is false: C75_race_violations. Proved for all schedules: the first call of all is right, every call that begins after it has returned is right, calls one after another are right, no call exceeds its buffer or waits for another. Sequentially consistent accesses; C11 calls the race undefined."
  },
  {
   "property": "C76",
   "status": "proved",
   "theorems": [
    "Wdns.C76_str_to_rdata",
    "Wdns.C76_str_to_name",
    "Wdns.C76_to_str",
    "Wdns.C76_message_to_str",
    "Wdns.C76_print",
    "Wdns.C76_print_functions",
    "Wdns.C76_file_load_names"
   ],
   "note": "For all paths. Block contents and the growth of ubuf storage are not part of this model (the latter is C57)."
  },
  {
   "property": "C77",
   "status": "partial",
   "theorems": [
    "Wdns.C77_usable_exactly_partial",
    "Wdns.C77_text_usable_partial",
    "Wdns.C77_generic",
    "Wdns.C77_other_class",
    "Wdns.C77_short_words",
    "Wdns.C77_nameless",
    "Wdns.C77_violations"
   ],
   "note": "False in full (C77_violations). C77_text_usable_partial: every accepted text that is not irregular in one of five listed ways (Spec/TextStable.lean: label over 63 octets, alpn ending in an empty id or with an id over 255, ech empty or over 189 octets, A6 prefix 128 without the name) and whose rdata is shorter than 65536 octets. C77_generic/C77_other_class/C77_nameless/C77_short_words are unconditional families. C77_usable_exactly_partial: octets are usable if and only if they are Expressible (C44), whatever text gave them; only SvcParams of 65532 octets and more are excluded."
  },
  {
   "property": "C78",
   "status": "proved",
   "theorems": [
    "Wdns.C78_rrsets_valid",
    "Wdns.C78_serialize",
    "Wdns.C78_canonical"
   ],
   "note": "For all packets, all RRsets, both byte orders, any qsort."
  },
  {
   "property": "C79",
   "status": "proved",
   "theorems": [
    "Wdns.C79_compression_transparent",
    "Wdns.C79_same_records"
   ],
   "note": "Equality of the whole parsed message, stated over the record specification of Spec/Message.lean. C79_same_records: the same for all accepted packets, described exactly (Spec/Wrapped.lean), SvcParams with lengths that wrap and names that borrow the octet behind included."
  },
  {
   "property": "C80",
   "status": "partial",
   "theorems": [
    "Wdns.C80_count_labels",
    "Wdns.C80_is_subdomain",
    "Wdns.C80_overread_violated",
    "Wdns.C80_left_chop",
    "Wdns.C80_chop_violated",
    "Wdns.C80_reverse",
    "Wdns.C80_count_exactly"
   ],
   "note": "False in full: C80_overread_violated (the octet just behind an unterminated name is read), C80_chop_violated (chopping the empty name object that chopping gives), second case of C80_reverse (labels that fill the name exactly make wdns_reverse_name write in front of the buffer). With one more readable octet behind the name, count_labels and is_subdomain are exact on all octets; left_chop and reverse_name are classified completely. Every answer of wdns_count_labels, with its code: C80_count_exactly."
  },
  {
   "property": "C81",
   "status": "proved",
   "theorems": [
    "Wdns.C81_shortest_unique",
    "Wdns.C81_encode64",
    "Wdns.C81_encode32",
    "Wdns.C81_length_packed",
    "Wdns.C81_length_packed_zero",
    "Wdns.C81_decode32",
    "Wdns.C81_decode32_iso",
    "Wdns.C81_decode64",
    "Wdns.C81_round_trip64",
    "Wdns.C81_round_trip32",
    "Wdns.C81_decode_none"
   ],
   "note": "C81_decode32_iso: under ISO C the shift data[4] << 28 of an int is undefined for numbers from 2^31 on; on the modelled compilers it gives the right number."
  },
  {
   "property": "C82",
   "status": "partial",
   "theorems": [
    "Wdns.C82_init",
    "Wdns.C82_fifo",
    "Wdns.C82_insert_refused",
    "Wdns.C82_remove_refused",
    "Wdns.C82_reported",
    "Wdns.C82_wait_free",
    "Wdns.C82_wrap_violated"
   ],
   "note": "Fails if the storage exceeds 2^32 octets: head * sizeof_elem is computed in 32 bits and two elements share their place (C82_wrap_violated). All other theorems are for every schedule under x86-TSO, with (n-1)*size < 2^32."
  },
  {
   "property": "C83",
   "status": "partial",
   "theorems": [
    "Wdns.C83_linearizable",
    "Wdns.C83_own_item",
    "Wdns.C83_progress"
   ],
   "note": "Same bound on the storage as C82 (C82_wrap_violated concerns the same address computation). The pthread mutex is modelled as an atomic lock with sequentially consistent critical sections."
  },
  {
   "property": "C84",
   "status": "proved",
   "theorems": [
    "Wdns.C84_slicing",
    "Wdns.C84_sse42",
    "Wdns.C84_unique",
    "Wdns.C84_same",
    "Wdns.C84_burst",
    "Wdns.C84_parity"
   ],
   "note": "The specification is polynomial division over GF(2) (Mathlib polynomials), independent of any shift register; all 4096 table entries are checked by the kernel. The crc32 instruction is modelled after Intel's manual. Misaligned and aliasing loads through uint32_t/uint64_t pointers are taken as octet loads."
  },
  {
   "property": "C85",
   "status": "partial",
   "theorems": [
    "Wdns.C85_bag",
    "Wdns.C85_first",
    "Wdns.C85_cost",
    "Wdns.C85_sorts",
    "Wdns.C85_get",
    "Wdns.C85_get_violated"
   ],
   "note": "False for heap_get on an empty heap: size - 1 wraps and every position is read (C85_get_violated). Everything else is proved for all histories, with no assumption on the comparison function except in C85_first and C85_sorts."
  },
  {
   "property": "C86",
   "status": "partial",
   "theorems": [
    "Wdns.C86_hashword2",
    "Wdns.C86_hashword",
    "Wdns.C86_hashlittle2",
    "Wdns.C86_hashlittle",
    "Wdns.C86_hashbig",
    "Wdns.C86_second_seed_zero",
    "Wdns.C86_words",
    "Wdns.C86_mix_reversible",
    "Wdns.C86_final_reversible",
    "Wdns.C86_inside_violated"
   ],
   "note": "False in one part: an aligned key whose length is not a multiple of four is read to the end of its last word (C86_inside_violated, for every such key; the source comments on it). Proved under the exact hypothesis that this word is readable: the octets after the key have no influence."
  },
  {
   "property": "C87",
   "status": "partial",
   "theorems": [
    "Wdns.C87_ip4_lower",
    "Wdns.C87_ip4_upper",
    "Wdns.C87_ip4_incr",
    "Wdns.C87_ip6_lower",
    "Wdns.C87_ip6_upper",
    "Wdns.C87_ip6_incr",
    "Wdns.C87_violated"
   ],
   "note": "False for IPv4 prefix lengths 0 and 1 and IPv6 prefix lengths 0 and 64, where a shift is undefined for every address (C87_violated); proved for all others, all addresses; increments in full."
  },
  {
   "property": "C88",
   "status": "partial",
   "theorems": [
    "Wdns.C88_balanced",
    "Wdns.C88_reload",
    "Wdns.C88_unchanged",
    "Wdns.C88_get",
    "Wdns.C88_duplicates_violated",
    "Wdns.C88_change_missed",
    "Wdns.C88_empty_line"
   ],
   "note": "Proved for all histories in which no set file lists a file twice (C88_balanced, C88_reload, C88_get); false otherwise: the same pointer is unloaded twice (C88_duplicates_violated). A change noted while the file cannot be opened is never read (C88_change_missed)."
  },
  {
   "property": "C89",
   "status": "proved",
   "theorems": [
    "Wdns.C89_exact",
    "Wdns.C89_refused",
    "Wdns.C89_round_trip",
    "Wdns.C89_driver"
   ],
   "note": "C89_exact, C89_refused, C89_round_trip, C89_driver. malloc failure is not modelled; texts of fewer than 2^64 characters."
  },
  {
   "property": "C90",
   "status": "partial",
   "theorems": [
    "Wdns.C90_payload",
    "Wdns.C90_inside_partial",
    "Wdns.C90_inside_violated",
    "Wdns.C90_overread_witness",
    "Wdns.C90_header_reads",
    "Wdns.C90_skipped",
    "Wdns.C90_prints_partial",
    "Wdns.C90_dumps_partial",
    "Wdns.C90_silent",
    "Wdns.C90_run",
    "Wdns.C90_status"
   ],
   "note": "Proved for every IPv4/UDP frame, cut or padded (C90_payload), and inside the capture for every frame whose total length is at least its header length (C90_inside_partial); violated for every other frame: a length of almost 2^32 is passed (C90_inside_violated, C90_overread_witness). C90_header_reads: the exact captures for which the handler itself reads beyond the capture. C90_prints_partial, C90_dumps_partial, C90_silent: what the handler prints and which frames it dumps. That the protocol is UDP and the IP version are not checked by the program. C90_run, C90_status: a whole run of wdns-dump-pcap (libpcap is a parameter): what is printed, which packets are copied, the counts and the status."
  },
  {
   "property": "C91",
   "status": "partial",
   "theorems": [
    "Wdns.C91_large",
    "Wdns.C91_prints_partial",
    "Wdns.C91_exit_partial",
    "Wdns.C91_violated"
   ],
   "note": "C91_large, C91_prints_partial, C91_exit_partial; false for files with a SvcParam of length field 65532 or more: C91_violated (endless loop on 30 octets; read behind the array)."
  },
  {
   "property": "C92",
   "status": "partial",
   "theorems": [
    "Wdns.C92_downcase_partial",
    "Wdns.C92_downcase_violated",
    "Wdns.C92_serialize_deserialize_partial"
   ],
   "note": "Packets without rdata of 65536 octets or more and without a SvcParam of length field 65532 or more, as in C62; outside of that rdata lengths wrap (C39). Lower-casing: rdata without zero octets in labels and not A6, as in C59; C92_downcase_violated shows that for an A6 record the program prints nothing and still exits with 0."
  },
  {
   "property": "C93",
   "status": "proved",
   "theorems": [
    "Wdns.C93_replace",
    "Wdns.C93_unique",
    "Wdns.C93_absent",
    "Wdns.C93_empty_violated"
   ],
   "note": "Full for every non-empty search string; an empty one makes the loop endless for every text: C93_empty_violated."
  },
  {
   "property": "C94",
   "status": "proved",
   "theorems": [
    "Wdns.C94_success",
    "Wdns.C94_failure",
    "Wdns.C94_waits",
    "Wdns.C94_bounds"
   ],
   "note": "Full; the kernel's read is modelled as giving at most what is asked for."
  },
  {
   "property": "C95",
   "status": "partial",
   "theorems": [
    "Wdns.C95_add",
    "Wdns.C95_sub",
    "Wdns.C95_next_tick",
    "Wdns.C95_aligned",
    "Wdns.C95_rate",
    "Wdns.C95_limit",
    "Wdns.C95_rate_violated",
    "Wdns.C95_no_limit",
    "Wdns.C95_adjusted",
    "Wdns.C95_adjust_violated",
    "Wdns.C95_rate_any",
    "Wdns.C95_per_second"
   ],
   "note": "Arithmetic in full. At most one return per period if a second is a whole number of periods (C95_rate, C95_limit; adjustment off, clock_nanosleep not interrupted); false otherwise: with three events a second five calls return within one second (C95_rate_violated), because ticks restart in every second. For every period below a second: no two calls return in the same period counted anew in each second (C95_rate_any), so at most as many in a clock second as periods begin in it (C95_per_second; the violating run attains this). With the adjustment on, whatever periods below a second it chooses, each call returns in a later period than the call before it (C95_adjusted); the adjustment is undefined if no time has passed since the first call, which needs a rate above 10^9 (C95_adjust_violated)."
  },
  {
   "property": "C96",
   "status": "proved",
   "theorems": [
    "Wdns.C96_distinct",
    "Wdns.C96_own",
    "Wdns.C96_unregistered",
    "Wdns.C96_consecutive",
    "Wdns.C96_mutex"
   ],
   "note": "Full, for fewer than 2^31 registrations. A thread that never registered reads 0, the number of the first one (C96_unregistered). The mutex is atomic and sequentially consistent."
  },
  {
   "property": "C97",
   "status": "partial",
   "theorems": [
    "Wdns.C97_printable",
    "Wdns.C97_quotes",
    "Wdns.C97_injective_partial",
    "Wdns.C97_injective_violated"
   ],
   "note": "Printable, one line, quotation marks escaped: full. Injective for sequences without a backslash; false in general: a backslash is not escaped, so every unprintable octet is written like the four characters of its escape (C97_injective_violated)."
  },
  {
   "property": "C98",
   "status": "proved",
   "theorems": [
    "Wdns.C98_prepend",
    "Wdns.C98_append",
    "Wdns.C98_insert_before",
    "Wdns.C98_insert_after",
    "Wdns.C98_unlink",
    "Wdns.C98_append_list",
    "Wdns.C98_linked",
    "Wdns.C98_empty",
    "Wdns.C98_walk",
    "Wdns.C98_init",
    "Wdns.C98_history",
    "Wdns.C98_misuse_violated"
   ],
   "note": "Full for permitted operations. The checks ISC_INSIST are empty macros, so misuse is not noticed: C98_misuse_violated (appending the last element again gives an endless chain, appending a list to itself empties it)."
  },
  {
   "property": "C99",
   "status": "proved",
   "theorems": [
    "Wdns.C99_history",
    "Wdns.C99_call",
    "Wdns.C99_lookup",
    "Wdns.C99_foreach"
   ],
   "note": "Full for the red-black half of tree.h. The keys of linked elements must not change, and only members may be removed (as the macros require). Mirror-image code is written once with the side as a parameter."
  },
  {
   "property": "C100",
   "status": "proved",
   "theorems": [
    "Wdns.C100_history",
    "Wdns.C100_call",
    "Wdns.C100_foreach",
    "Wdns.C100_remove_violated"
   ],
   "note": "Full for the splay half of tree.h. C100_remove_violated: SPLAY_REMOVE returns its argument, not the element that was taken out, when they are different but equal objects. The keys of linked elements must not change; SPLAY_NEXT needs a member. The amortised cost is not modelled."
  },
  {
   "property": "C101",
   "status": "proved",
   "theorems": [
    "Wdns.C101_parse",
    "Wdns.C101_short",
    "Wdns.C101_attained",
    "Wdns.C101_name_text",
    "Wdns.C101_rdata_text",
    "Wdns.C101_failure",
    "Wdns.C101_rdata_code",
    "Wdns.C101_packet_code",
    "Wdns.C101_text_overflow",
    "Wdns.C101_text_parse"
   ],
   "note": "Full. Codes that only malloc failure could give are not modelled. C101_rdata_code and C101_packet_code say for every code which inputs get it; they assume that the octet behind the packet is readable (without it, C35_leaves_exactly says what happens). C101_text_overflow and C101_text_parse say which texts wdns_str_to_rdata rejects with which code."
  },
  {
   "property": "C102",
   "status": "partial",
   "theorems": [
    "Wdns.C102_init",
    "Wdns.C102_safe",
    "Wdns.C102_exclusive",
    "Wdns.C102_once",
    "Wdns.C102_returned",
    "Wdns.C102_visible",
    "Wdns.C102_keeps",
    "Wdns.C102_no_deadlock",
    "Wdns.C102_call",
    "Wdns.C102_destroyed_violated"
   ],
   "note": "False in the last part but one: a file in active with the name of a newly arrived one is unlinked, even if the rename then fails (C102_destroyed_violated); C102_keeps shows that this is the only loss. Everything else in full. Assumed: the directories are not moved, no hard links between the paths, PATH has no NUL."
  },
  {
   "property": "C103",
   "status": "partial",
   "theorems": [
    "Wdns.C103_init",
    "Wdns.C103_init_rejects",
    "Wdns.C103_init_hang_violated",
    "Wdns.C103_open_leak_violated",
    "Wdns.C103_reads",
    "Wdns.C103_serial_violated",
    "Wdns.C103_no_leak",
    "Wdns.C103_second_soa_violated",
    "Wdns.C103_error_continues",
    "Wdns.C103_origin_leak_violated",
    "Wdns.C103_command_violated"
   ],
   "note": "Proved for files with one SOA record and no malformed line (C103_init, C103_reads) and for the rejections (C103_init_rejects). False elsewhere: a file without records is an endless loop, a failing open leaks the object, an $ORIGIN line in front of the SOA record leaks its name, a second SOA record looks like the end of the file but is not, zonefile_get_serial aborts once the SOA record has been read, the shell command contains the file name unquoted. libldns itself is not part of this code base and is assumed to follow its documentation."
  },
  {
   "property": "C104",
   "status": "partial",
   "theorems": [
    "Wdns.C104_no_lost_update",
    "Wdns.C104_order",
    "Wdns.C104_set",
    "Wdns.C104_results",
    "Wdns.C104_refcount",
    "Wdns.C104_zero",
    "Wdns.C104_zero64_violated",
    "Wdns.C104_zero64_partial",
    "Wdns.C104_ptr",
    "Wdns.C104_ptr_alone",
    "Wdns.C104_ptr_fails_violated"
   ],
   "note": "In full, except: atomic64_zero returns an int, so that a count of 2^31 or more is lost (C104_zero64_violated; exact condition in C104_zero64_partial), and atomic_ptr_set can fail when another thread interferes (C104_ptr_fails_violated). The compiler's __sync functions are assumed to be atomic."
  },
  {
   "property": "C105",
   "status": "partial",
   "theorems": [
    "Wdns.C105_getenv_partial",
    "Wdns.C105_range",
    "Wdns.C105_empty_violated",
    "Wdns.C105_wrap_violated",
    "Wdns.C105_clobber_violated"
   ],
   "note": "The accepted texts are exactly the numbers and the empty text (C105_getenv_partial). False: the empty text counts as 0, negative and too large numbers are accepted, the value is overwritten if the text is rejected."
  },
  {
   "property": "C106",
   "status": "proved",
   "theorems": [
    "Wdns.C106_bswap",
    "Wdns.C106_le32",
    "Wdns.C106_pack"
   ],
   "note": "In full. If the C library has le32toh, that is used and assumed to do the same."
  },
  {
   "property": "C107",
   "status": "proved",
   "theorems": [
    "Wdns.C107_message_text",
    "Wdns.C107_parsed_section_text",
    "Wdns.C107_name_work",
    "Wdns.C107_stored",
    "Wdns.C107_records",
    "Wdns.C107_rdata_text",
    "Wdns.C107_rr_text",
    "Wdns.C107_section_text"
   ],
   "note": "In full. Not counted: structs and pointer arrays (a constant per record, at most one record per five octets). An example has records that take 1530 octets for 16, 95.6 each. No hypothesis about SvcParams is needed. Texts (C107_rdata_text, C107_rr_text, C107_section_text) are bounded for the library's own objects, whose blocks have the noted size, when nothing behind the rdata is read (C74); every parsed record is of this kind, so that C107_parsed_section_text and C107_message_text have no such hypothesis."
  },
  {
   "property": "C108",
   "status": "partial",
   "theorems": [
    "Wdns.C108_terminates",
    "Wdns.C108_last_violated",
    "Wdns.C108_cluster_violated",
    "Wdns.C108_empty_violated",
    "Wdns.C108_file_violated",
    "Wdns.C108_null_violated",
    "Wdns.C108_range_violated",
    "Wdns.C108_files_violated",
    "Wdns.C108_safe_partial"
   ],
   "note": "Termination is proved for every input (C108_terminates). Memory safety is proved under four hypotheses (C108_safe_partial), each of which is shown necessary: using the last option of an array reads behind ARGV_LAST (C108_last_violated, for every array and every such option); -ooo with more option characters than arguments, or an argument file, writes behind the queue (C108_cluster_violated for every length, C108_file_violated); argc = 0 (C108_empty_violated); an array entry with a NULL variable (C108_null_violated); values outside the range of binary, octal, hexadecimal, size and counter types (C108_range_violated). An argument file that names itself is opened exponentially often (C108_files_violated). The messages, the usage text and the exits are modelled separately (C121 - C123, C126). Not modelled: malloc failure in argv.c."
  },
  {
   "property": "C109",
   "status": "partial",
   "theorems": [
    "Wdns.C109_alternatives",
    "Wdns.C109_array",
    "Wdns.C109_mandatory",
    "Wdns.C109_one_of",
    "Wdns.C109_positional_violated"
   ],
   "note": "The alternatives are proved for options; arguments taken by position (ARGV_MAND, ARGV_MAYBE) are not checked against alternatives, shown by C109_positional_violated."
  },
  {
   "property": "C111",
   "status": "proved",
   "theorems": [
    "Wdns.C111_bases"
   ],
   "note": "In full, undefined exactly from 2^31 on."
  },
  {
   "property": "C112",
   "status": "proved",
   "theorems": [
    "Wdns.C112_copy",
    "Wdns.C112_copy_zero",
    "Wdns.C112_words",
    "Wdns.C112_name",
    "Wdns.C112_variable",
    "Wdns.C112_env"
   ],
   "note": "In full."
  },
  {
   "property": "C110",
   "status": "partial",
   "theorems": [
    "Wdns.C110_was_used",
    "Wdns.C110_not_used",
    "Wdns.C110_meaning",
    "Wdns.C110_default",
    "Wdns.C110_text",
    "Wdns.C110_prefix_violated",
    "Wdns.C110_cluster_violated"
   ],
   "note": "Proved for options written one by one or together in one word without '=' and negative numbers as values (C110_meaning over Spec.Written, C110_default, C110_text), argv_close_enable_b on and argv_last_toggle_b off (the defaults); environment words are reduced to this by C112_env. False for a long name with which another begins: rejected although written in full (C110_prefix_violated), and for several short options in one word with '=': all of them get the value (C110_cluster_violated)."
  },
  {
   "property": "C113",
   "status": "proved",
   "theorems": [
    "Wdns.C113_accepted",
    "Wdns.C113_wrong",
    "Wdns.C113_missing",
    "Wdns.C113_array",
    "Wdns.C113_array_rejected"
   ],
   "note": "For the lines of C110 (Spec.Written: options one by one or together, negative numbers; no environment words, argv_close_enable_b on, argv_last_toggle_b off): C113_accepted is an equivalence; C113_wrong, C113_missing cover the words that are no line of that kind."
  },
  {
   "property": "C114",
   "status": "partial",
   "theorems": [
    "Wdns.C114_value",
    "Wdns.C114_variable",
    "Wdns.C114_flag",
    "Wdns.C114_counter",
    "Wdns.C114_checked_violated"
   ],
   "note": "C114_value, C114_variable, C114_flag, C114_counter hold for all texts that denote a value (floating point is a parameter of the model). False for the other texts: words for numbers and numbers out of range are accepted (C114_checked_violated)."
  },
  {
   "property": "C115",
   "status": "partial",
   "theorems": [
    "Wdns.C115_parse",
    "Wdns.C115_name",
    "Wdns.C115_deserialize",
    "Wdns.C115_text",
    "Wdns.C115_render",
    "Wdns.C115_render_safe_partial",
    "Wdns.C115_text_safe_partial",
    "Wdns.C115_text_violated",
    "Wdns.C115_render_violated",
    "Wdns.C115_parse_granted",
    "Wdns.C115_deserialize_granted",
    "Wdns.C115_name_granted",
    "Wdns.C115_text_granted",
    "Wdns.C115_render_granted_partial",
    "Wdns.C115_local_parse",
    "Wdns.C115_local_deserialize",
    "Wdns.C115_local_name",
    "Wdns.C115_local_text",
    "Wdns.C115_local_render",
    "Wdns.C115_print",
    "Wdns.C115_print_safe_partial",
    "Wdns.C115_print_granted_partial",
    "Wdns.C115_unnoticed",
    "Wdns.C115_load_names",
    "Wdns.C115_load_names_granted",
    "Wdns.C115_local_print",
    "Wdns.C115_local_load_names"
   ],
   "note": "Returns are right in full (C115_parse, C115_deserialize, C115_name, C115_text, C115_render, C115_print, C115_load_names; the last one can also report wdns_res_failure because the file could not be opened), and without undefined behaviour for parsing, deserializing and names. False for text of rdata: malloc, calloc and strdup are unchecked in str_to_rdata_ubuf.c and bytes_to_ubuf_base64 (C115_text_violated, C115_render_violated); for types without such fields it holds (C115_text_safe_partial, C115_render_safe_partial). Which request enlarges a ubuf is left open; passing NULL to the base32 decoder counts as undefined even if it rejects its input first. C115_local_*: refusals before or after a call change nothing: if no request of the moments that the call takes with enough memory is refused, its result and its blocks are those it has with enough memory. C115_*_granted: no refusal goes unnoticed, that is, every request made by a call that returns was granted (for writing: types without base64 text and SvcParams; C115_unnoticed is a harmless exception)."
  },
  {
   "property": "C116",
   "status": "partial",
   "theorems": [
    "Wdns.C116_back_partial",
    "Wdns.C116_back_text",
    "Wdns.C116_binary_violated",
    "Wdns.C116_negative_base_violated",
    "Wdns.C116_unsigned_violated",
    "Wdns.C116_shown_partial",
    "Wdns.C116_every",
    "Wdns.C116_unknown",
    "Wdns.C116_inside",
    "Wdns.C116_plain_partial",
    "Wdns.C116_terminated_violated",
    "Wdns.C116_escape_violated",
    "Wdns.C116_octal_violated",
    "Wdns.C116_one_octet_violated",
    "Wdns.C116_negative_violated",
    "Wdns.C116_array_partial",
    "Wdns.C116_entry",
    "Wdns.C116_empty_array"
   ],
   "note": "C116_shown_partial, C116_every, C116_unknown, C116_inside, C116_plain_partial, C116_array_partial, C116_entry, C116_empty_array, C116_back_partial, C116_back_text hold for all values and buffers. False: characters and strings get no NUL (C116_terminated_violated), special characters are all shown as a backslash and a NUL (C116_escape_violated), of the octal digits of an unprintable character the last is lost (C116_octal_violated), 0 overruns a buffer of one octet (C116_one_octet_violated), unsigned sizes from 2^63 on are negative (C116_negative_violated); binary numbers are read back as 0 (C116_binary_violated), negative octal and hexadecimal ones overflow (C116_negative_base_violated), unsigned long from 2^63 on are read as 2^63 - 1 (C116_unsigned_violated)."
  },
  {
   "property": "C117",
   "status": "proved",
   "theorems": [
    "Wdns.C117_word",
    "Wdns.C117_first",
    "Wdns.C117_else"
   ],
   "note": "C117_word (both directions), C117_first, C117_else. A failing malloc in process_env and the messages for wrong words are not modelled."
  },
  {
   "property": "C118",
   "status": "partial",
   "theorems": [
    "Wdns.C118_address_partial",
    "Wdns.C118_name_violated"
   ],
   "note": "C118_address_partial holds if the address of the very name in the array is given. False for the same name at another address: the answer is always no (C118_name_violated)."
  },
  {
   "property": "C119",
   "status": "partial",
   "theorems": [
    "Wdns.C119_accepted",
    "Wdns.C119_refused_partial",
    "Wdns.C119_refused_violated",
    "Wdns.C119_twice_violated",
    "Wdns.C119_twice_partial"
   ],
   "note": "C119_accepted: after success, for all defaults. After a refusal only if the defaults are NULL or from malloc (C119_refused_partial): otherwise `-s` without its value makes the clean-up free the default (C119_refused_violated). A second clean-up frees the strings again (C119_twice_violated) unless only arrays hold strings (C119_twice_partial). Missing: strings replaced by a later value of the same option are never given back; the model does not keep them."
  },
  {
   "property": "C120",
   "status": "partial",
   "theorems": [
    "Wdns.C120_options_partial",
    "Wdns.C120_options_violated",
    "Wdns.C120_section_partial",
    "Wdns.C120_message_partial",
    "Wdns.C120_message_violated"
   ],
   "note": "C120_message_partial and C120_section_partial: for packets whose rdata can be expressed in text (Spec.Expressible: exactly those that come back from their text, C44). C120_options_partial: the EDNS options, with the hypotheses of C62 only. Missing because the code violates it (C120_message_violated, C120_options_violated): the reserved bit of the header, the EDNS flags other than DO, rdata that cannot be expressed, e.g. an address in class CH, unprintable octets of extended errors, zero octets of client subnets, and what follows a malformed option."
  },
  {
   "property": "C121",
   "status": "partial",
   "theorems": [
    "Wdns.C121_long_partial",
    "Wdns.C121_long_width_partial",
    "Wdns.C121_line",
    "Wdns.C121_line_only",
    "Wdns.C121_width_violated",
    "Wdns.C121_short",
    "Wdns.C121_short_violated",
    "Wdns.C121_choice",
    "Wdns.C121_set"
   ],
   "note": "C121_long_partial (exact text), C121_long_width_partial, C121_line, C121_line_only, C121_short (exact words and widths), C121_choice. False: an option with a value and only a long name of 30 octets or more makes the line too long, because a negative precision counts as none (C121_width_violated); options that have only a long name are missing from the short message or shown as a NUL (C121_short_violated)."
  },
  {
   "property": "C122",
   "status": "partial",
   "theorems": [
    "Wdns.C122_display_partial",
    "Wdns.C122_words",
    "Wdns.C122_help_violated"
   ],
   "note": "C122_display_partial: for values with a text (C116) and arguments by position with a label of at most 33 octets. C122_words. False: the text set for --help is never written, --help is taken as --usage (C122_help_violated)."
  },
  {
   "property": "C123",
   "status": "partial",
   "theorems": [
    "Wdns.C123_explained",
    "Wdns.C123_unknown_long",
    "Wdns.C123_unknown_short",
    "Wdns.C123_named_violated",
    "Wdns.C123_counter_violated"
   ],
   "note": "C123_explained: nothing is written for an accepted line; for a refused one the text is not empty and true, the missing options and values exactly. C123_unknown_long, C123_unknown_short: every unknown option (in front of --) is named. False: an option without a short name that is given twice is named by an octet 0 (C123_named_violated); an array of counters is called an array of boolean values (C123_counter_violated)."
  },
  {
   "property": "C124",
   "status": "proved",
   "theorems": [
    "Wdns.C124_subdomain_chop",
    "Wdns.C124_subdomain_reverse",
    "Wdns.C124_subdomain_downcase",
    "Wdns.C124_text_downcase",
    "Wdns.C124_reverse_downcase"
   ],
   "note": "C124_subdomain_chop, C124_subdomain_reverse, C124_subdomain_downcase, C124_text_downcase, C124_reverse_downcase."
  },
  {
   "property": "C125",
   "status": "partial",
   "theorems": [
    "Wdns.C125_order",
    "Wdns.C125_digits",
    "Wdns.C125_text",
    "Wdns.C125_macro_violated"
   ],
   "note": "C125_order, C125_digits, C125_text. False: the macro WDNS_LIBRARY_VERSION_NUMBER has no parentheses, so it is not a number inside a larger expression (C125_macro_violated)."
  },
  {
   "property": "C126",
   "status": "partial",
   "theorems": [
    "Wdns.C126_returns",
    "Wdns.C126_accepted",
    "Wdns.C126_exits",
    "Wdns.C126_asked",
    "Wdns.C126_stream",
    "Wdns.C126_first_violated",
    "Wdns.C126_texts"
   ],
   "note": "C126_returns, C126_accepted, C126_exits, C126_asked, C126_stream, C126_texts. False: argv_process_no_env does not call argv_startup, so that, called first, it writes its messages to the address 1 (C126_first_violated)."
  },
  {
   "property": "C127",
   "status": "partial",
   "theorems": [
    "Wdns.C127_domain_text",
    "Wdns.C127_domain_fits",
    "Wdns.C127_domain_leaves",
    "Wdns.C127_domain_violated"
   ],
   "note": "C127_domain_text: the exact text and return value for all octets behind which one more is readable, and when the buffer overflows; C127_domain_fits: 1025 octets suffice for 255 octets; C127_domain_leaves: exactly when the octet behind is read. False in full: C127_domain_violated (the octet behind the object is read without need, and a label that is cut off counts in full in the return value)."
  },
  {
   "property": "C128",
   "status": "proved",
   "theorems": [
    "Wdns.C128_cut",
    "Wdns.C128_cut_alone",
    "Wdns.C128_appended",
    "Wdns.C128_borrowed"
   ],
   "note": "C128_cut (any memory), C128_cut_alone, C128_appended: in full, without restriction on the packets. C128_borrowed shows why the second part supposes nothing readable behind the packet."
  },
  {
   "property": "C129",
   "status": "proved",
   "theorems": [
    "Wdns.C129_order",
    "Wdns.C129_count",
    "Wdns.C129_stored"
   ],
   "note": "C129_order, C129_count, C129_stored: in full."
  },
  {
   "property": "C130",
   "status": "proved",
   "theorems": [
    "Wdns.C130_exact",
    "Wdns.C130_release",
    "Wdns.C130_nothing_left",
    "Wdns.C130_independent"
   ],
   "note": "C130_exact, C130_release, C130_nothing_left, C130_independent: in full. Allocations succeed (my_malloc aborts otherwise)."
  },
  {
   "property": "C131",
   "status": "proved",
   "theorems": [
    "Wdns.C131_alike",
    "Wdns.C131_stored"
   ],
   "note": "C131_alike: in full. C131_stored: for RRsets whose rdata names can be lower-cased (C59), as stated."
  },
  {
   "property": "C132",
   "status": "proved",
   "theorems": [
    "Wdns.C132_same",
    "Wdns.C132_message",
    "Wdns.C132_injective"
   ],
   "note": "C132_same, C132_message, C132_injective: in full."
  }
 ]
}