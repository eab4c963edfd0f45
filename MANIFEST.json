{
 "claims": [
  {
   "property": "C01",
   "status": "proved",
   "theorems": [
    "Verif.Codec.C01_timetlv_decode_is_rfc5497",
    "Verif.Codec.C01_timetlv_decode_special",
    "Verif.Codec.C01_timetlv_encode_least",
    "Verif.Codec.C01_timetlv_roundtrip",
    "Verif.Codec.C01_timetlv_encode_bounds"
   ],
   "note": "All intervals and codes; minimality as a Galois connection."
  },
  {
   "property": "C02",
   "status": "proved",
   "theorems": [
    "Verif.Codec.C02_timetlv_decode_monotone",
    "Verif.Codec.C02_timetlv_decode_strict",
    "Verif.Codec.C02_timetlv_low_codes_collide",
    "Verif.Codec.C02_timetlv_relay_stable",
    "Verif.Codec.C02_timetlv_relay_code"
   ],
   "note": "Monotone over all codes, strict from code 24, relaying keeps the denoted time; codes below 24 collide because of the 1 ms resolution."
  },
  {
   "property": "C03",
   "status": "proved",
   "theorems": [
    "Verif.Codec.C03_timetlv_vector_lookup",
    "Verif.Codec.C03_vector_entry_unique",
    "Verif.Codec.C03_timetlv_vector_illegal"
   ],
   "note": "All vectors and hop counts, no out-of-bounds read."
  },
  {
   "property": "C04",
   "status": "proved",
   "theorems": [
    "Verif.Codec.C04_metric_decode_is_rfc7181",
    "Verif.Codec.C04_metric_strict_mono",
    "Verif.Codec.C04_metric_encode_least",
    "Verif.Codec.C04_metric_encode_rejects",
    "Verif.Codec.C04_metric_encode_saturates",
    "Verif.Codec.C04_metric_code_roundtrip",
    "Verif.Codec.C04_metric_flags_independent"
   ],
   "note": "All metrics and codes, including the direction flags."
  },
  {
   "property": "C05",
   "status": "partial",
   "theorems": [
    "Verif.Codec.C05_seqno_larger_iff",
    "Verif.Codec.C05_seqno_larger_asymm",
    "Verif.Codec.C05_seqno_larger_shift",
    "Verif.Codec.C05_seqno_trichotomy_partial",
    "Verif.Codec.C05_seqno_trichotomy_counterexample",
    "Verif.Codec.C05_seqno_difference",
    "Verif.Codec.C05_seqno_difference_recovers"
   ],
   "note": "Trichotomy fails at distance 2^15 (counterexample proved); everything else holds for all numbers."
  },
  {
   "property": "C06",
   "status": "proved",
   "theorems": [
    "Verif.DupSet.C06_no_double_accept",
    "Verif.DupSet.C06_no_double_accept_first",
    "Verif.DupSet.C06_duplicate_was_recorded",
    "Verif.DupSet.C06_window_bounds",
    "Verif.DupSet.C06_keys_independent",
    "Verif.DupSet.C06_entry_add",
    "Verif.DupSet.C06_expired_key_is_first",
    "Verif.DupSet.C06_set_no_double_accept"
   ],
   "note": "All histories of add/test accesses for all widths."
  },
  {
   "property": "C07",
   "status": "proved",
   "theorems": [
    "Verif.DupSet.C07_restart_recovery",
    "Verif.DupSet.C07_counter_bounded"
   ],
   "note": "All states and runs of out-of-window numbers."
  },
  {
   "property": "C08",
   "status": "partial",
   "theorems": [
    "Verif.DupSet.C08_query_changes_set_counterexample",
    "Verif.DupSet.C08_query_keeps_window_partial",
    "Verif.DupSet.C08_query_predicts_add"
   ],
   "note": "False: a query can reset the window (counterexample). Partial: a query keeps the window unless it is the ninth out-of-window number in a row."
  },
  {
   "property": "C09",
   "status": "proved",
   "theorems": [
    "Verif.Bits.C09_set",
    "Verif.Bits.C09_reset",
    "Verif.Bits.C09_empty_full",
    "Verif.Bits.C09_extensional",
    "Verif.Bits.C09_subset"
   ],
   "note": "All bitmaps and positions; bitmaps are determined by their members."
  },
  {
   "property": "C10",
   "status": "partial",
   "theorems": [
    "Verif.Bits.C10_read",
    "Verif.Bits.C10_read_degenerate",
    "Verif.Bits.C10_write",
    "Verif.Bits.C10_write_degenerate",
    "Verif.Bits.C10_pad",
    "Verif.Bits.C10_roundtrip",
    "Verif.Bits.C10_no_overflow",
    "Verif.Bits.C10_read_memcpy",
    "Verif.Bits.C10_write_memcpy_counterexample",
    "Verif.Bits.C10_write_memcpy_partial"
   ],
   "note": "Reads, writes, padding and round trip for all operation sequences (buffers below 2^28 bytes). False for byte copies into a stream, which do not advance the position (counterexample; what they do is the partial theorem)."
  },
  {
   "property": "C11",
   "status": "proved",
   "theorems": [
    "Verif.Str.C11_roundtrip",
    "Verif.Str.C11_small_buffer",
    "Verif.Str.C11_accepts_iff",
    "Verif.Str.C11_never_overflows",
    "Verif.Str.C11_value"
   ],
   "note": "All byte strings and buffer sizes."
  },
  {
   "property": "C12",
   "status": "partial",
   "theorems": [
    "Verif.Json.C12_string_roundtrip",
    "Verif.Json.C12_escaped",
    "Verif.Json.C12_nesting_partial",
    "Verif.Json.C12_nesting_counterexample"
   ],
   "note": "Escaping for all strings; nesting for all documents whose template tables contain a value; an empty table leaves a stray comma (counterexample)."
  },
  {
   "property": "C13",
   "status": "proved",
   "theorems": [
    "Verif.Str.C13_append",
    "Verif.Str.C13_prepend",
    "Verif.Str.C13_count",
    "Verif.Str.C13_get",
    "Verif.Str.C13_remove",
    "Verif.Str.C13_copy",
    "Verif.Str.C13_sequence",
    "Verif.Str.C13_compare"
   ],
   "note": "All arrays and sequences of operations, on the level of the byte layout."
  },
  {
   "property": "C14",
   "status": "partial",
   "theorems": [
    "Verif.Autobuf.C14_puts",
    "Verif.Autobuf.C14_memcpy",
    "Verif.Autobuf.C14_prepend",
    "Verif.Autobuf.C14_appendf",
    "Verif.Autobuf.C14_pull",
    "Verif.Autobuf.C14_fifo_partial",
    "Verif.Autobuf.C14_terminator_counterexample",
    "Verif.Autobuf.C14_pull_terminator_counterexample"
   ],
   "note": "All operation sequences with arbitrary allocation failures except a failing print; that case and the missing terminator after a pull are counterexamples."
  },
  {
   "property": "C15",
   "status": "partial",
   "theorems": [
    "Verif.Template.C15_expansion_partial",
    "Verif.Template.C15_overflow_counterexample",
    "Verif.Template.C15_default_format"
   ],
   "note": "All formats with at most 64 known markers; for every format with more the parser writes behind its array (counterexample for all of them)."
  },
  {
   "property": "C16",
   "status": "partial",
   "theorems": [
    "Verif.IsoNum.C16_whole_exact",
    "Verif.IsoNum.C16_scaled_partial",
    "Verif.IsoNum.C16_precision_counterexample",
    "Verif.IsoNum.C16_wrap_counterexample",
    "Verif.IsoNum.C16_long_fraction_counterexample",
    "Verif.IsoNum.C16_negative_counterexample",
    "Verif.IsoNum.C16_signed_partial",
    "Verif.IsoNum.C16_signed_counterexample",
    "Verif.IsoNum.C16_garbage_rejected"
   ],
   "note": "Exact for whole numbers; for fractions under explicit bounds on digits and products. Five counterexamples show wrong values outside of them."
  },
  {
   "property": "C17",
   "status": "proved",
   "theorems": [
    "Verif.Netaddr.C17_netaddr",
    "Verif.Netaddr.C17_strcasecmp",
    "Verif.Netaddr.C17_integers"
   ],
   "note": "Total order for all addresses, strings (case insensitive) and integers."
  },
  {
   "property": "C18",
   "status": "proved",
   "theorems": [
    "Verif.Netaddr.C18_in_subnet",
    "Verif.Netaddr.C18_binary_in_subnet"
   ],
   "note": "All addresses and prefix lengths of well-formed objects."
  },
  {
   "property": "C19",
   "status": "proved",
   "theorems": [
    "Verif.Netaddr.C19_truncate",
    "Verif.Netaddr.C19_truncate_idempotent",
    "Verif.Netaddr.C19_create_host"
   ],
   "note": "All addresses and prefix lengths."
  },
  {
   "property": "C20",
   "status": "partial",
   "theorems": [
    "Verif.Netaddr.C20_subnetmask_counterexample",
    "Verif.Netaddr.C20_noncontiguous_rejected",
    "Verif.Netaddr.C20_create_prefix_partial",
    "Verif.Netaddr.C20_create_prefix_counterexample"
   ],
   "note": "The claim is false: all dotted netmasks are off by one (proved for all of them), binary masks are right only up to eight bits (partial theorem)."
  },
  {
   "property": "C21",
   "status": "partial",
   "theorems": [
    "Verif.NetText.C21_roundtrip_partial",
    "Verif.NetText.C21_uuid_counterexample",
    "Verif.NetText.C21_unspec",
    "Verif.NetText.C21_parse_regular"
   ],
   "note": "All families; IPv6 text conversion of libc is a hypothesis (Inet6.Sound). The prefix length of a UUID is lost (counterexample for all such addresses)."
  },
  {
   "property": "C22",
   "status": "proved",
   "theorems": [
    "Verif.Acl.C22_decision",
    "Verif.Acl.C22_order_irrelevant",
    "Verif.Acl.C22_copy",
    "Verif.Acl.C22_configuration",
    "Verif.Acl.C22_configured_entries"
   ],
   "note": "Decision, configuration parsing and copy for all lists."
  },
  {
   "property": "C23",
   "status": "proved",
   "theorems": [
    "Verif.Avl.C23_contents",
    "Verif.Avl.C23_insert",
    "Verif.Avl.C23_remove",
    "Verif.Avl.C23_find"
   ],
   "note": "All histories of insertions and removals, with and without duplicates, down to pointer level rotations; no access through null."
  },
  {
   "property": "C24",
   "status": "proved",
   "theorems": [
    "Verif.Avl.C24_balanced",
    "Verif.Avl.C24_depth"
   ],
   "note": "All histories; depth bound for lookups."
  },
  {
   "property": "C25",
   "status": "proved",
   "theorems": [
    "Verif.Avl.C25_lessequal",
    "Verif.Avl.C25_greaterequal"
   ],
   "note": "All histories and keys; first/last of equal keys as documented."
  },
  {
   "property": "C26",
   "status": "partial",
   "theorems": [
    "Verif.Timer.C26_due_time_partial",
    "Verif.Timer.C26_no_jitter",
    "Verif.Timer.C26_counterexample",
    "Verif.Timer.C26_start_partial"
   ],
   "note": "Proved for jitter up to 100% and intervals/times that do not overflow 64 bit milliseconds (below 2^57 ms in histories); the counterexample theorem shows an interval of 2^64-1 ms firing after 50 ms and a jitter above 100% extending the interval."
  },
  {
   "property": "C27",
   "status": "partial",
   "theorems": [
    "Verif.Timer.C27_walk_partial",
    "Verif.Timer.C27_counterexample"
   ],
   "note": "Proved for all callbacks and histories with intervals below 2^57 ms and jitter up to 100%; a due timer touched by a callback of the same walk follows that operation. The counterexample theorem shows a walk that never ends for an interval of 2^64-1 ms."
  },
  {
   "property": "C28",
   "status": "partial",
   "theorems": [
    "Verif.Timer.C28_after_callback_partial",
    "Verif.Timer.C28_stopped_partial",
    "Verif.Timer.C28_counterexample"
   ],
   "note": "Proved for all callbacks and histories with intervals below 2^57 ms; the counterexample theorem shows an interval near 2^64 ms wrapping to due time 0, where stop has no effect."
  },
  {
   "property": "C29",
   "status": "partial",
   "theorems": [
    "Verif.Class.C29_areas_partial",
    "Verif.Class.C29_refused_partial",
    "Verif.Class.C29_accepted",
    "Verif.Class.C29_counterexample"
   ],
   "note": "Proved while fewer than 2^32 blocks were requested from the system; the counterexample theorem shows a reachable state where the wrapped 32 bit counter lets an extension be added while an object is in use. Sizes must not overflow 64 bit."
  },
  {
   "property": "C30",
   "status": "partial",
   "theorems": [
    "Verif.Class.C30_counters",
    "Verif.Class.C30_malloc_partial",
    "Verif.Class.C30_free"
   ],
   "note": "Counters and free proved for all histories; allocation (no access outside of blocks, zeroed, not in use) while fewer than 2^32 blocks were requested from the system (see C29 counterexample). The bound on the free list is stated per free operation."
  },
  {
   "property": "C31",
   "status": "partial",
   "theorems": [
    "Verif.Reader.C31_packet_partial",
    "Verif.Reader.C31_no_hazard_partial",
    "Verif.Reader.C31_division_counterexample",
    "Verif.Reader.C31_read_counterexample",
    "Verif.Reader.C31_copy_counterexample"
   ],
   "note": "False as stated: three malformed encodings lead to undefined behaviour (counterexample theorems). Proved: these are the only ones (Hazard), otherwise the parser returns and all data given to callbacks lies in the packet."
  },
  {
   "property": "C32",
   "status": "proved",
   "theorems": [
    "Verif.Reader.C32_local",
    "Verif.Reader.C32_messages",
    "Verif.Reader.C32_split_unique",
    "Verif.Reader.C32_all_messages"
   ],
   "note": "Messages are delimited by size fields alone, parsed as if alone, all visited for packets of well-formed messages. A parse error in one message ends the packet (stated in C32_messages)."
  },
  {
   "property": "C33",
   "status": "proved",
   "theorems": [
    "Verif.Reader.C33_forward_permitted",
    "Verif.Reader.C33_forward_once",
    "Verif.Reader.C33_forwarded",
    "Verif.Reader.C33_error_masked"
   ],
   "note": "Necessary and sufficient conditions for forwarding, at most once. C33_error_masked records that an error code of a consumer is lost when its end callback returns OKAY."
  },
  {
   "property": "C34",
   "status": "proved",
   "theorems": [
    "Verif.Reader.C34_drop_scope",
    "Verif.Reader.C34_packet_delivered",
    "Verif.Reader.C34_message_delivered"
   ],
   "note": "Scope of drops for all pairs of events, and delivery of everything outside of the scope to packet and message consumers."
  },
  {
   "property": "C35",
   "status": "proved",
   "theorems": [
    "Verif.Writer.C35_tlv_read_back",
    "Verif.Writer.C35_size",
    "Verif.Writer.C35_block",
    "Verif.Writer.C35_add",
    "Verif.Writer.C35_set"
   ],
   "note": "TLV, TLV block, and the add/allocate/set interface of a TLV buffer; for values up to 65535 bytes (the length field)."
  },
  {
   "property": "C36",
   "status": "partial",
   "theorems": [
    "Verif.Writer.C36_partial",
    "Verif.Writer.C36_counterexample_count",
    "Verif.Writer.C36_counterexample_same_bytes"
   ],
   "note": "Proved for the first fragment with at most 255 addresses, distinct neighbouring addresses and distinct TLV types per address; two counterexamples show that the count limit and equal bytes break the code."
  },
  {
   "property": "C37",
   "status": "partial",
   "theorems": [
    "Verif.Writer.C37_packet_read_back",
    "Verif.Writer.C37_partial",
    "Verif.Writer.C37_counterexample_reserved",
    "Verif.Writer.C37_counterexample_forward"
   ],
   "note": "Proved for histories without reservation of packet TLV space in generated packets and forwarded messages up to 1225 bytes; counterexamples for both."
  },
  {
   "property": "C38",
   "status": "proved",
   "theorems": [
    "Verif.Writer.C38_forwarded",
    "Verif.Writer.C38_bytes",
    "Verif.Writer.C38_expired"
   ],
   "note": "Header and all bytes; the message size field is assumed to be the message length, as the reader checks."
  },
  {
   "property": "C39",
   "status": "partial",
   "theorems": [
    "Verif.Writer.C39_partial",
    "Verif.Writer.C39_failure",
    "Verif.Writer.C39_counterexample_termination",
    "Verif.Writer.C39_counterexample_size"
   ],
   "note": "Mandatory addresses repeated and optional addresses partitioned if each one fits; counterexamples: endless loop, fragment larger than the maximum."
  },
  {
   "property": "C40",
   "status": "partial",
   "theorems": [
    "Verif.Routing.C40_partial",
    "Verif.Routing.C40_terminates",
    "Verif.Routing.C40_small_network",
    "Verif.Routing.C40_split_counterexample",
    "Verif.Routing.C40_overflow_counterexample"
   ],
   "note": "Route set and cost equal the minimum over all ways to reach the destination (paths over TC edges and attached networks, neighbor addresses, two-hop addresses); termination proved. Assumes path costs fit 32 bits (holds for at most 255 routers, proved) and, for source specific destinations, a topology without mixed support; both restrictions shown necessary by counterexamples."
  },
  {
   "property": "C41",
   "status": "partial",
   "theorems": [
    "Verif.Routing.C41_partial"
   ],
   "note": "Next hop, interface, gateway, last router and hop count (modulo 256) are those of a minimum-cost way whose first hop is a symmetric neighbor; same restrictions as C40."
  },
  {
   "property": "C42",
   "status": "partial",
   "theorems": [
    "Verif.Routing.C42_order",
    "Verif.Routing.C42_scheduled",
    "Verif.Routing.C42_converges_partial",
    "Verif.Routing.C42_history_partial",
    "Verif.Routing.C42_lost_update_counterexample",
    "Verif.Routing.C42_stale_route_counterexample",
    "Verif.Routing.C42_blocked_entry_counterexample"
   ],
   "note": "Order and scheduling proved for all states; convergence proved for histories in which all requests of a run are carried out and answered (in any order) before the next run. Lost updates, stale kernel routes and blocked entries in other histories are counterexamples."
  },
  {
   "property": "C43",
   "status": "partial",
   "theorems": [
    "Verif.Mpr.C43_flooding_partial",
    "Verif.Mpr.C43_routing_partial",
    "Verif.Mpr.C43_two_links_counterexample",
    "Verif.Mpr.C43_routing_abort_counterexample",
    "Verif.Mpr.C43_routing_first_link_counterexample"
   ],
   "note": "Flooding relays proved when every originator has at most one link on the interface, routing relays when originators differ, the links of a neighbor agree about two-hop metrics and no neighbor has willingness ALWAYS. Each hypothesis is shown to be needed by a counterexample (uncovered address, failed assertion, more expensive neighbor)."
  },
  {
   "property": "C44",
   "status": "partial",
   "theorems": [
    "Verif.Mpr.C44_flooding_partial",
    "Verif.Mpr.C44_routing_partial",
    "Verif.Mpr.C44_routing_always_counterexample",
    "Verif.Mpr.C44_never_flagged_counterexample",
    "Verif.Mpr.C44_always_hidden_counterexample"
   ],
   "note": "Flooding proved for one link per originator and interface. For routing, NEVER neighbors are never selected; an ALWAYS neighbor dereferences a null pointer (proved for all databases). Counterexamples for two links of an originator on an interface."
  },
  {
   "property": "C45",
   "status": "partial",
   "theorems": [
    "Verif.Tc.C45_operations_partial",
    "Verif.Tc.C45_wellformed_partial",
    "Verif.Tc.C45_self_edge_counterexample",
    "Verif.Tc.C45_freed_node_counterexample",
    "Verif.Tc.C45_support_counterexample",
    "Verif.Tc.C45_old_originator_counterexample",
    "Verif.Tc.C45_endpoint_owner_counterexample"
   ],
   "note": "proved for all histories of database calls and of events (TCs, expiries, neighbor changes) whose TCs carry the mandatory TLVs and do not list their originator; support of objects needs validity times that are not 0; counterexamples show each restriction is needed"
  },
  {
   "property": "C46",
   "status": "partial",
   "theorems": [
    "Verif.Tc.C46_outdated_partial",
    "Verif.Tc.C46_forward",
    "Verif.Tc.C46_malformed_counterexample",
    "Verif.Tc.C46_timer_counterexample"
   ],
   "note": "outdated TCs change only validity timers and the stored sequence number only moves forward, for all reachable states; counterexamples: TC without mandatory TLVs after an outdated TC, outdated TC with validity time 0"
  },
  {
   "property": "C47",
   "status": "partial",
   "theorems": [
    "Verif.Olsr.C47_forward_iff_partial",
    "Verif.Olsr.C47_once_partial",
    "Verif.Olsr.C47_process_iff",
    "Verif.Olsr.C47_unchecked_counterexample",
    "Verif.Olsr.C47_selector_ignored_counterexample"
   ],
   "note": "C47_forward_iff_partial: a TC with all mandatory TLVs is forwarded exactly if it is valid, not own, hop limit > 1, received from a symmetric neighbor that selected this node as flooding MPR and accepted as new by the forwarded set; C47_once_partial: at most once over every history without expiry and within the sequence window; C47_process_iff: processed exactly if valid and new. Not true without the premise: C47_unchecked_counterexample (TC failing its TLV constraints is forwarded unchecked, even the node's own and repeatedly), C47_selector_ignored_counterexample (a copy first heard from a non-selector suppresses the later copy of a selector)."
  },
  {
   "property": "C48",
   "status": "partial",
   "theorems": [
    "Verif.Olsr.C48_current",
    "Verif.Olsr.C48_remembered",
    "Verif.Olsr.C48_only_own",
    "Verif.Olsr.C48_forgotten",
    "Verif.Olsr.C48_unspec_counterexample",
    "Verif.Olsr.C48_memory_counterexample",
    "Verif.Olsr.C48_choice_partial",
    "Verif.Olsr.C48_choice_counterexample"
   ],
   "note": "C48_current, C48_remembered, C48_only_own, C48_forgotten: history-level characterisation of which originators are recognised. C48_choice_partial: the chosen address is usable and of the best rank when one exists and none is selected before; counterexamples: the unspecified address counts as own while a family has no originator, a too short hold time forgets, and the choice is not always an improvement."
  },
  {
   "property": "C49",
   "status": "partial",
   "theorems": [
    "Verif.Nhdp.C49_symmetric",
    "Verif.Nhdp.C49_pending",
    "Verif.Nhdp.C49_heard",
    "Verif.Nhdp.C49_lost",
    "Verif.Nhdp.C49_update_partial",
    "Verif.Nhdp.C49_unsymmetric_counterexample"
   ],
   "note": "The decision table is proved for all inputs; an update stores it. Between a stopped symmetric timer (interface down) and the next update the cached status stays symmetric (counterexample)."
  },
  {
   "property": "C50",
   "status": "partial",
   "theorems": [
    "Verif.Nhdp.C50_counter_partial",
    "Verif.Nhdp.C50_symLinks",
    "Verif.Nhdp.C50_unsymmetric_counterexample",
    "Verif.Nhdp.C50_removed_counterexample"
   ],
   "note": "Proved for all histories of HELLOs naming one link of one neighbor, status updates and timeouts. Interface down (double decrement) and removal of a symmetric link by a HELLO with addresses of two links break it (counterexamples)."
  },
  {
   "property": "C51",
   "status": "partial",
   "theorems": [
    "Verif.Nhdp.C51_connect",
    "Verif.Nhdp.C51_disconnect",
    "Verif.Nhdp.C51_partners_partial",
    "Verif.Nhdp.C51_self_counterexample",
    "Verif.Nhdp.C51_family_counterexample"
   ],
   "note": "Mutual, one-to-one and between existing objects after all histories; a neighbor can become its own partner and families are not checked (counterexamples)."
  },
  {
   "property": "C52",
   "status": "partial",
   "theorems": [
    "Verif.Nhdp.C52_no_freed_partial",
    "Verif.Nhdp.C52_references_partial",
    "Verif.Nhdp.C52_mixed_counterexample"
   ],
   "note": "Proved for all histories in which the addresses of a HELLO do not mix a link of one neighbor with addresses of another; otherwise the current link is freed and used (counterexample)."
  },
  {
   "property": "C53",
   "status": "partial",
   "theorems": [
    "Verif.Olsr.C53_history",
    "Verif.Olsr.C53_reported_partial",
    "Verif.Olsr.C53_equal_partial",
    "Verif.Olsr.C53_zero_counterexample",
    "Verif.Olsr.C53_removed_counterexample"
   ],
   "note": "C53_history: for every history the set has exactly the configured networks, domains, metrics and distances. The summary flag: C53_reported_partial ('same' is right if no distance is 0), C53_equal_partial (equal distances are reported after an addition). Not true in general: distance 0 is used as 'not set' (C53_zero_counterexample), the flag is not recalculated on removal (C53_removed_counterexample)."
  },
  {
   "property": "C54",
   "status": "partial",
   "theorems": [
    "Verif.Routing.C54_verdict_counterexample",
    "Verif.Routing.C54_rejected_counterexample",
    "Verif.Routing.C54_partial"
   ],
   "note": "The claim is false in the code: the verdict of a filter is ignored (continue in the inner loop). Proved for all filter lists; only the parameter changes of filters take effect."
  },
  {
   "property": "C55",
   "status": "proved",
   "theorems": [
    "Verif.Str.C55_words_exist",
    "Verif.Str.C55_count",
    "Verif.Str.C55_copy_next",
    "Verif.Str.C55_copy_bounded",
    "Verif.Str.C55_has_next"
   ],
   "note": "All texts."
  },
  {
   "property": "C56",
   "status": "proved",
   "theorems": [
    "Verif.Str.C56_copy",
    "Verif.Str.C56_append"
   ],
   "note": "All strings and sizes."
  },
  {
   "property": "C57",
   "status": "proved",
   "theorems": [
    "Verif.IsoNum.C57_raw",
    "Verif.IsoNum.C57_large",
    "Verif.IsoNum.C57_small"
   ],
   "note": "All 64 bit numbers."
  },
  {
   "property": "C58",
   "status": "proved",
   "theorems": [
    "Verif.Netaddr.C58_binary_roundtrip",
    "Verif.Netaddr.C58_equal_binary",
    "Verif.Netaddr.C58_socket_roundtrip",
    "Verif.Netaddr.C58_compare_socket",
    "Verif.Netaddr.C58_embed_extract"
   ],
   "note": "All families and addresses."
  },
  {
   "property": "C59",
   "status": "proved",
   "theorems": [
    "Verif.Timer.C59_usage",
    "Verif.Timer.C59_next_event"
   ],
   "note": "Intervals below 2^57 ms, jitter up to 100% as for C26-C28."
  },
  {
   "property": "C60",
   "status": "partial",
   "theorems": [
    "Verif.Writer.C60_partial",
    "Verif.Writer.C60_counterexample"
   ],
   "note": "Proved for TLVs of distinct types at an address; a counterexample shows values mixed up for several TLVs of one type."
  },
  {
   "property": "C61",
   "status": "partial",
   "theorems": [
    "Verif.Writer.C61_partial"
   ],
   "note": "As for C36 and messages up to 65535 bytes."
  },
  {
   "property": "C62",
   "status": "partial",
   "theorems": [
    "Verif.Tc.C62_complete",
    "Verif.Tc.C62_incomplete_counterexample",
    "Verif.Tc.C62_unknown_counterexample",
    "Verif.Tc.C62_same_number_counterexample"
   ],
   "note": "proved for complete TCs; counterexamples for incomplete TCs and for a repeated sequence number"
  },
  {
   "property": "C63",
   "status": "partial",
   "theorems": [
    "Verif.Olsr.C63_neighbor",
    "Verif.Olsr.C63_lan_partial",
    "Verif.Olsr.C63_incoming_counterexample",
    "Verif.Olsr.C63_removed_counterexample",
    "Verif.Olsr.C63_first_domain_counterexample",
    "Verif.Olsr.C63_domains_counterexample",
    "Verif.Olsr.C63_destination_counterexample",
    "Verif.Olsr.C63_database"
   ],
   "note": "C63_neighbor (one neighbor address, all TLV orders, different domain lists) and C63_database (composition with the topology database, C62). C63_lan_partial: attached networks, under premises whose failure is shown by four counterexamples (domain order, removed domain, first domain, shared destination). C63_incoming_counterexample: an unknown incoming metric suppresses the outgoing one."
  },
  {
   "property": "C64",
   "status": "partial",
   "theorems": [
    "Verif.Domain.C64_mpr_partial",
    "Verif.Domain.C64_willingness_absent",
    "Verif.Domain.C64_willingness_partial",
    "Verif.Domain.C64_order_counterexample",
    "Verif.Domain.C64_other_counterexample"
   ],
   "note": "Proved for routers which have their common domains at the same positions (one list may be longer): MPR and willingness TLVs are read as sent, and the remaining domains get defaults. False for domains in a different order or different lists of domains (two counterexamples): the receiver ignores the content of the MPR_TYPES TLV."
  },
  {
   "property": "C65",
   "status": "partial",
   "theorems": [
    "Verif.Domain.C65_metric",
    "Verif.Domain.C65_reported_partial",
    "Verif.Domain.C65_settled",
    "Verif.Domain.C65_lost_counterexample",
    "Verif.Domain.C65_incoming_counterexample"
   ],
   "note": "Metrics and best link proved for all links and previous values; a second recalculation reports nothing. The change report is exact for neighbors which keep a usable link; loss of the last link and changed incoming metrics are not reported (counterexamples)."
  },
  {
   "property": "C66",
   "status": "partial",
   "theorems": [
    "Verif.Domain.C66_selected_partial",
    "Verif.Domain.C66_removed_counterexample",
    "Verif.Domain.C66_absent_counterexample"
   ],
   "note": "Proved over all histories in which the latest event is a HELLO with MPR TLV. The cached answer stays true after the selecting neighbor is removed or sends a HELLO without MPR TLV (counterexamples)."
  },
  {
   "property": "C67",
   "status": "proved",
   "theorems": [
    "Verif.Layer2.C67_arbitration",
    "Verif.Layer2.C67_winner_unique",
    "Verif.Layer2.C67_changed_flag",
    "Verif.Layer2.C67_reset_counterexample"
   ],
   "note": "Proved for all histories of writes, with the winner unique. C67_reset_counterexample: after the data of an originator was cleaned up, a write that relies on the stored metadata (meta NULL) hits the assertion."
  },
  {
   "property": "C68",
   "status": "partial",
   "theorems": [
    "Verif.Layer2.C68_read_partial",
    "Verif.Layer2.C68_negative_counterexample",
    "Verif.Layer2.C68_store_partial",
    "Verif.Layer2.C68_store_counterexample",
    "Verif.Layer2.C68_roundtrip_partial"
   ],
   "note": "Proved for non-negative numbers and for negative ones whenever the conversion multiplies. Missing: negative numbers that have to be divided are converted through an unsigned division (C68_negative_counterexample, C68_store_counterexample)."
  },
  {
   "property": "C69",
   "status": "partial",
   "theorems": [
    "Verif.Layer2.C69_origin_removed_partial",
    "Verif.Layer2.C69_neighbor_gone",
    "Verif.Layer2.C69_no_new_objects",
    "Verif.Layer2.C69_peer_kept_counterexample",
    "Verif.Layer2.C69_peer_lost_counterexample"
   ],
   "note": "Proved for metrics, defaults, neighbor addresses and destinations. Missing: addresses of local radios, which stay after their originator is removed or vanish with the last metric of another originator (two counterexamples)."
  },
  {
   "property": "C70",
   "status": "proved",
   "theorems": [
    "Verif.Layer2.C70_relabel"
   ],
   "note": "Full property."
  },
  {
   "property": "C71",
   "status": "partial",
   "theorems": [
    "Verif.Layer2.C71_neighbor_commit",
    "Verif.Layer2.C71_interface_commit_partial",
    "Verif.Layer2.C71_interface_counterexample"
   ],
   "note": "Neighbors: full. Interfaces: partial, addresses of the local radio do not keep the interface (C71_interface_counterexample)."
  },
  {
   "property": "C72",
   "status": "proved",
   "theorems": [
    "Verif.Layer2.C72_consistent",
    "Verif.Layer2.C72_lookup"
   ],
   "note": "Full property, invariant over all operation sequences."
  },
  {
   "property": "C73",
   "status": "proved",
   "theorems": [
    "Verif.Layer2.C73_query",
    "Verif.Layer2.C73_unknown_interface",
    "Verif.Layer2.C73_get_data"
   ],
   "note": "Full property."
  },
  {
   "property": "C74",
   "status": "partial",
   "theorems": [
    "Verif.Layer2.C74_best_match_partial",
    "Verif.Layer2.C74_best_match_counterexample"
   ],
   "note": "Missing: the code returns the least specific instead of the most specific prefix (C74_best_match_counterexample)."
  },
  {
   "property": "C75",
   "status": "partial",
   "theorems": [
    "Verif.Layer2.C75_served",
    "Verif.Layer2.C75_unique_partial",
    "Verif.Layer2.C75_unique_counterexample"
   ],
   "note": "Missing: more than 2^24 link ids for one MAC address; the first byte of the counter is overwritten, so ids repeat (C75_unique_counterexample)."
  },
  {
   "property": "C76",
   "status": "partial",
   "theorems": [
    "Verif.Layer2.C76_roundtrip",
    "Verif.Layer2.C76_no_fault_partial",
    "Verif.Layer2.C76_overflow_counterexample",
    "Verif.Layer2.C76_accepted"
   ],
   "note": "Round trip and acceptance full. Missing: a comma at index 62 makes the parser write one byte behind its buffer (C76_overflow_counterexample)."
  },
  {
   "property": "C77",
   "status": "proved",
   "theorems": [
    "Verif.Layer2.C77_integer",
    "Verif.Layer2.C77_boolean",
    "Verif.Layer2.C77_complement",
    "Verif.Layer2.C77_text"
   ],
   "note": "Full property."
  },
  {
   "property": "C78",
   "status": "partial",
   "theorems": [
    "Verif.Layer2.C78_net_add_partial",
    "Verif.Layer2.C78_long_name_counterexample"
   ],
   "note": "Missing: names of 16 or more characters, which are stored truncated (C78_long_name_counterexample)."
  },
  {
   "property": "C79",
   "status": "proved",
   "theorems": [
    "Verif.Layer2.C79_ip_add",
    "Verif.Layer2.C79_ip_remove",
    "Verif.Layer2.C79_dest_add",
    "Verif.Layer2.C79_dest_remove",
    "Verif.Layer2.C79_peer",
    "Verif.Layer2.C79_neighbor_remove"
   ],
   "note": "Full property."
  },
  {
   "property": "C80",
   "status": "proved",
   "theorems": [
    "Verif.Metric.C80_quality_bounded",
    "Verif.Metric.C80_quality_is_aged",
    "Verif.Metric.C80_usable_iff",
    "Verif.Metric.C80_pending_lost",
    "Verif.Metric.C80_status_updated",
    "Verif.Metric.C80_validate"
   ],
   "note": "Complete for the modelled update of the plugin; timers and the status update of the link are represented by their arguments."
  },
  {
   "property": "C81",
   "status": "partial",
   "theorems": [
    "Verif.Metric.C81_reception_geometric",
    "Verif.Metric.C81_accepted_partial",
    "Verif.Metric.C81_accepted_counterexample",
    "Verif.Metric.C81_rejected_partial",
    "Verif.Metric.C81_rejected_counterexample",
    "Verif.Metric.C81_timer"
   ],
   "note": "Proved for accept < 1 and for reject*scaling >= 1/1000; counterexamples show both conditions are needed."
  },
  {
   "property": "C82",
   "status": "proved",
   "theorems": [
    "Verif.Metric.C82_window",
    "Verif.Metric.C82_no_data"
   ],
   "note": "Complete; counters modulo 2^32."
  },
  {
   "property": "C83",
   "status": "partial",
   "theorems": [
    "Verif.Metric.C83_share_partial",
    "Verif.Metric.C83_share_counterexample"
   ],
   "note": "Proved without repeated packets and below 2^32 packets in the window; counterexample with repeated packets."
  },
  {
   "property": "C84",
   "status": "proved",
   "theorems": [
    "Verif.Metric.C84_none_missed",
    "Verif.Metric.C84_missed",
    "Verif.Metric.C84_decreasing",
    "Verif.Metric.C84_reset",
    "Verif.Metric.C84_counted"
   ],
   "note": "Complete within 32 bit ranges stated as hypotheses; C84_counted ties the counter to the history of events."
  },
  {
   "property": "C85",
   "status": "partial",
   "theorems": [
    "Verif.Metric.C85_median_partial",
    "Verif.Metric.C85_median_counterexample",
    "Verif.Metric.C85_median_unique",
    "Verif.Metric.C85_scale"
   ],
   "note": "Proved for speeds below 2^31 bit/s; counterexamples above."
  },
  {
   "property": "C86",
   "status": "partial",
   "theorems": [
    "Verif.Metric.C86_cost_partial",
    "Verif.Metric.C86_monotone_partial",
    "Verif.Metric.C86_monotone_counterexample",
    "Verif.Metric.C86_layer2_counterexample",
    "Verif.Metric.C86_stable"
   ],
   "note": "Range and monotonicity for the linear exponent without layer-2 data, counterexamples for the others; stability in general."
  },
  {
   "property": "C87",
   "status": "partial",
   "theorems": [
    "Verif.Metric.C87_exponent_partial",
    "Verif.Metric.C87_cubic_counterexample",
    "Verif.Metric.C87_loop"
   ],
   "note": "Linear and quadratic; counterexample for cubic; the loop in general."
  },
  {
   "property": "C88",
   "status": "partial",
   "theorems": [
    "Verif.Metric.C88_metric_legal",
    "Verif.Metric.C88_defined_partial",
    "Verif.Metric.C88_sample_defined_partial",
    "Verif.Metric.C88_defined_counterexample"
   ],
   "note": "Legality in all executions; definedness for linear and dynamic exponents in all executions, for all exponents per sample under received <= total; counterexample for cubic."
  },
  {
   "property": "C89",
   "status": "partial",
   "theorems": [
    "Verif.Metric.C89_options_counterexample",
    "Verif.Metric.C89_mic_partial",
    "Verif.Metric.C89_dynamic_partial"
   ],
   "note": "Counterexample over all executions; the partial theorems describe the factor if the neighborhood were known."
  },
  {
   "property": "C90",
   "status": "partial",
   "theorems": [
    "Verif.Metric.C90_airtime_partial",
    "Verif.Metric.C90_monotone_partial",
    "Verif.Metric.C90_sample",
    "Verif.Metric.C90_monotone_counterexample"
   ],
   "note": "Proved for speeds below 2^31 bit/s and without layer-2 throughput; counterexample above."
  },
  {
   "property": "C91",
   "status": "proved",
   "theorems": [
    "Verif.Hello.C91_link_metrics",
    "Verif.Hello.C91_twohop_metrics",
    "Verif.Hello.C91_tlv_count"
   ],
   "note": "Complete for the metric TLVs of one domain."
  },
  {
   "property": "C92",
   "status": "partial",
   "theorems": [
    "Verif.Hello.C92_heard",
    "Verif.Hello.C92_lost_partial",
    "Verif.Hello.C92_twohop",
    "Verif.Hello.C92_lost_counterexample"
   ],
   "note": "C92_heard and C92_twohop are complete; the claim about lost links fails for links lost together with their address (counterexample)."
  },
  {
   "property": "C93",
   "status": "partial",
   "theorems": [
    "Verif.Hello.C93_order_partial",
    "Verif.Hello.C93_not_late_partial",
    "Verif.Hello.C93_hello_partial",
    "Verif.Hello.C93_status_partial",
    "Verif.Hello.C93_overdue_counterexample",
    "Verif.Hello.C93_infinite_counterexample",
    "Verif.Hello.C93_zero_counterexample"
   ],
   "note": "Proved for clocks that process timers before packets and validity times from 1 ms to the longest finite one; the three excluded cases are counterexamples."
  },
  {
   "property": "C94",
   "status": "proved",
   "theorems": [
    "Verif.Hello.C94_symmetric_is_bidirectional",
    "Verif.Hello.C94_heard_is_recent",
    "Verif.Hello.C94_times",
    "Verif.Hello.C94_handshake"
   ],
   "note": "Complete for the system of two routers; timers are processed before HELLOs of the same moment (see C93 for the other case)."
  },
  {
   "property": "C95",
   "status": "partial",
   "theorems": [
    "Verif.Subsys.C95_order_partial",
    "Verif.Subsys.C95_state_partial",
    "Verif.Subsys.C95_case_counterexample"
   ],
   "note": "Proved for every sequence of operations if names that are equal without case are equal (Distinct); counterexample for other names."
  },
  {
   "property": "C96",
   "status": "partial",
   "theorems": [
    "Verif.Subsys.C96_result_partial",
    "Verif.Subsys.C96_retry_counterexample"
   ],
   "note": "Proved for all dependency graphs and reachable states without marks left by a failed start; counterexample for a retry. Missing: states after a failed start."
  },
  {
   "property": "C97",
   "status": "partial",
   "theorems": [
    "Verif.Subsys.C97_plain_partial",
    "Verif.Subsys.C97_prefix_partial",
    "Verif.Subsys.C97_overflow_counterexample",
    "Verif.Subsys.C97_linux_counterexample"
   ],
   "note": "Names without directory and postfix; overflow proved for every name of the critical length, other witnesses for Linux names."
  },
  {
   "property": "C98",
   "status": "partial",
   "theorems": [
    "Verif.Subsys.C98_cleanup_partial"
   ],
   "note": "Proved for all reachable states if names that are equal without case are equal."
  },
  {
   "property": "C99",
   "status": "partial",
   "theorems": [
    "Verif.Subsys.C99_unload_partial",
    "Verif.Subsys.C99_static_counterexample"
   ],
   "note": "Proved for all reachable states if names that are equal without case are equal; counterexample for plugins without cleanup support."
  },
  {
   "property": "C100",
   "status": "partial",
   "theorems": [
    "Verif.Subsys.C100_tree_partial",
    "Verif.Subsys.C100_name_counterexample",
    "Verif.Subsys.C100_schema_counterexample"
   ],
   "note": "Tree: proved for libraries containing the plugin with their own name; counterexamples for other libraries and for the schema."
  },
  {
   "property": "C101",
   "status": "partial",
   "theorems": [
    "Verif.Subsys.C101_inverted_counterexample",
    "Verif.Subsys.C101_list_partial",
    "Verif.Subsys.C101_usage"
   ],
   "note": "list proved; for load and unload the wrong effect is proved for every name and tree."
  },
  {
   "property": "C102",
   "status": "proved",
   "theorems": [
    "Verif.Cfg.C102_addSection",
    "Verif.Cfg.C102_setEntry",
    "Verif.Cfg.C102_removeType",
    "Verif.Cfg.C102_removeNamed",
    "Verif.Cfg.C102_removeEntry",
    "Verif.Cfg.C102_removeElement",
    "Verif.Cfg.C102_wellformed"
   ],
   "note": "All operations, with frame conditions; the map is read by lookup functions."
  },
  {
   "property": "C103",
   "status": "proved",
   "theorems": [
    "Verif.Cfg.C103_append",
    "Verif.Cfg.C103_duplicate"
   ],
   "note": "Complete."
  },
  {
   "property": "C104",
   "status": "proved",
   "theorems": [
    "Verif.Cfg.C104_lookup",
    "Verif.Cfg.C104_set"
   ],
   "note": "Complete."
  },
  {
   "property": "C105",
   "status": "partial",
   "theorems": [
    "Verif.Cfg.C105_accept_partial",
    "Verif.Cfg.C105_values",
    "Verif.Cfg.C105_mandatory_counterexample",
    "Verif.Cfg.C105_values_counterexample"
   ],
   "note": "Equivalence with a validity predicate that leaves out mandatory entries of unnamed sections and further values of entries that are not lists; both gaps proved as counterexamples."
  },
  {
   "property": "C106",
   "status": "partial",
   "theorems": [
    "Verif.Cfg.C106_removes_bad",
    "Verif.Cfg.C106_keeps_good",
    "Verif.Cfg.C106_wellformed",
    "Verif.Cfg.C106_defined_partial",
    "Verif.Cfg.C106_freed_counterexample",
    "Verif.Cfg.C106_list_counterexample",
    "Verif.Cfg.C106_unknown_counterexample",
    "Verif.Cfg.C106_second_partial"
   ],
   "note": "What is removed and what is kept is proved; definedness needs at most one validator for each key; acceptance afterwards needs that there are no unknown entries."
  },
  {
   "property": "C107",
   "status": "partial",
   "theorems": [
    "Verif.Cfg.C107_named",
    "Verif.Cfg.C107_unnamed",
    "Verif.Cfg.C107_startup",
    "Verif.Cfg.C107_default_partial",
    "Verif.Cfg.C107_default_startup",
    "Verif.Cfg.C107_default_value_counterexample",
    "Verif.Cfg.C107_twice_counterexample",
    "Verif.Cfg.C107_vanish_counterexample"
   ],
   "note": "Complete for modes with and without names and for the start; with default sections only while named sections exist."
  },
  {
   "property": "C108",
   "status": "partial",
   "theorems": [
    "Verif.Cfg.Compact.C108_entry_line",
    "Verif.Cfg.Compact.C108_type_line",
    "Verif.Cfg.Compact.C108_name_line",
    "Verif.Cfg.Compact.C108_reversed",
    "Verif.Cfg.Compact.C108_roundtrip_partial",
    "Verif.Cfg.Compact.C108_order_counterexample",
    "Verif.Cfg.Compact.C108_overrun_counterexample",
    "Verif.Cfg.Compact.C108_swallow_counterexample"
   ],
   "note": "Lines with arbitrary white space; round trip up to the order of the values; memory errors proved for all keys."
  },
  {
   "property": "C109",
   "status": "partial",
   "theorems": [
    "Verif.Cfg.Cmd.C109_syntax",
    "Verif.Cfg.Cmd.C109_set",
    "Verif.Cfg.Cmd.C109_set_section",
    "Verif.Cfg.Cmd.C109_set_error",
    "Verif.Cfg.Cmd.C109_set_abort_counterexample",
    "Verif.Cfg.Cmd.C109_remove_entry",
    "Verif.Cfg.Cmd.C109_remove_type",
    "Verif.Cfg.Cmd.C109_remove_name_counterexample",
    "Verif.Cfg.Cmd.C109_get",
    "Verif.Cfg.Cmd.C109_set_get"
   ],
   "note": "Syntax, set, get, set-get and the removal of entries and types are proved for all texts and databases. False: setting \"\", \"=v\", \"k=v\" or \"t.=v\" aborts (assert or null key); removing \"t[n].\" removes all sections of type t."
  },
  {
   "property": "C110",
   "status": "partial",
   "theorems": [
    "Verif.CfgBin.C110_string_partial",
    "Verif.CfgBin.C110_string_counterexample",
    "Verif.CfgBin.C110_printable",
    "Verif.CfgBin.C110_choice",
    "Verif.CfgBin.C110_unknown_choice_counterexample",
    "Verif.CfgBin.C110_bool",
    "Verif.CfgBin.C110_int_partial",
    "Verif.CfgBin.C110_int_range",
    "Verif.CfgBin.C110_truncated_counterexample",
    "Verif.CfgBin.C110_window_counterexample",
    "Verif.CfgBin.C110_single_list_counterexample"
   ],
   "note": "Proved for texts shorter than the array, printable texts, choices, booleans, whole numbers and (range only) numbers in any notation. False: a text of exactly the size of the array loses its last character; a range wider than a 4 byte target is truncated; entries declared as lists are never converted by scalar converters; simple_security refuses its own default. Missing: value of fractional numbers (see C16)."
  },
  {
   "property": "C111",
   "status": "partial",
   "theorems": [
    "Verif.CfgBin.C111_netaddr",
    "Verif.CfgBin.C111_acl",
    "Verif.CfgBin.C111_bitmap_partial",
    "Verif.CfgBin.C111_bitmap_accepted",
    "Verif.CfgBin.C111_bitmap_counterexample",
    "Verif.CfgBin.C111_stringlist_partial"
   ],
   "note": "Addresses and access control lists proved completely; bit fields for items in regular notation. False: the empty value sets bit 0, numbers are taken modulo 2^32, a blank in front of a minus sign changes the meaning; a list of texts starting with an empty one is stored as empty list."
  },
  {
   "property": "C112",
   "status": "partial",
   "theorems": [
    "Verif.CfgBin.C112_validate_partial",
    "Verif.CfgBin.C112_extra_word_counterexample",
    "Verif.CfgBin.C112_convert",
    "Verif.CfgBin.C112_last_default_counterexample"
   ],
   "note": "Validation proved for at most as many words as entries, conversion for enough words and for missing words. False: a value with more words than entries makes the validation use memory behind the array of entries; the default of the last entry is never used. Words are shorter than 256 bytes."
  },
  {
   "property": "C113",
   "status": "partial",
   "theorems": [
    "Verif.CfgBin.C113_line_partial",
    "Verif.CfgBin.C113_freed_counterexample"
   ],
   "note": "Proved if the text fits into the allocated memory. False otherwise: the loop uses a pointer into the memory before realloc."
  },
  {
   "property": "C114",
   "status": "partial",
   "theorems": [
    "Verif.Cfg.C114_reachable",
    "Verif.Cfg.C114_apply",
    "Verif.Cfg.C114_accept",
    "Verif.Cfg.C114_failed_partial",
    "Verif.Cfg.C114_notified",
    "Verif.Cfg.C114_startup",
    "Verif.Cfg.C114_rollback",
    "Verif.Cfg.C114_rollback_counterexample",
    "Verif.Cfg.C114_global_counterexample",
    "Verif.Cfg.C114_late_plugin_counterexample"
   ],
   "note": "Proved for all reachable states: decision of apply, content of the databases, notification at start and later, frame of a failed apply, rollback. Partial because the claim is false: a rolled back database has no schema so every later apply fails (and ends the main loop), a failed apply leaves the global binary copy changed, and a plugin loaded later is not told about a section with default values. Plugin loading and the converter of the global section are arbitrary functions."
  },
  {
   "property": "C115",
   "status": "partial",
   "theorems": [
    "Verif.TwoHop.C115_follows",
    "Verif.TwoHop.C115_unique",
    "Verif.TwoHop.C115_expires",
    "Verif.TwoHop.C115_heard_counterexample",
    "Verif.TwoHop.C115_forever_counterexample"
   ],
   "note": "Full equivalence with the HELLO history (C115_follows); domains have different TLV extensions. The claim about non-symmetric links and validity time 0 is false: counterexamples."
  },
  {
   "property": "C116",
   "status": "partial",
   "theorems": [
    "Verif.TwoHop.C116_partial",
    "Verif.TwoHop.C116_counterexample",
    "Verif.TwoHop.C116_no_route_counterexample"
   ],
   "note": "nhdp_db_2hop_is_lost is inverted: general counterexample; the partial theorem says which two-hop addresses are used."
  },
  {
   "property": "C117",
   "status": "partial",
   "theorems": [
    "Verif.Subsys.C117_load",
    "Verif.Subsys.C117_cfgLoad",
    "Verif.Subsys.C117_shutdown",
    "Verif.Subsys.C117_unload_partial"
   ],
   "note": "Load and configuration results for every state; unloading under the assumption of C95 that names differ in more than case."
  },
  {
   "property": "C118",
   "status": "partial",
   "theorems": [
    "Verif.Http.C118_round_trip",
    "Verif.Http.C118_limit",
    "Verif.Http.C118_case_counterexample",
    "Verif.Http.C118_inside",
    "Verif.Http.C118_bare_cr"
   ],
   "note": "Round trip, limit and in-bounds proved; field names are case sensitive (counterexample to RFC 7230)."
  },
  {
   "property": "C119",
   "status": "partial",
   "theorems": [
    "Verif.Http.C119_decode",
    "Verif.Http.C119_uri",
    "Verif.Http.C119_counterexample"
   ],
   "note": "Decoding proved for all encodings; zero bytes and malformed escapes cut the URI (counterexample)."
  },
  {
   "property": "C120",
   "status": "partial",
   "theorems": [
    "Verif.Http.C120_split",
    "Verif.Http.C120_lookup",
    "Verif.Http.C120_lookup_none",
    "Verif.Http.C120_get_partial",
    "Verif.Http.C120_get_counterexample",
    "Verif.Http.C120_post_counterexample"
   ],
   "note": "Splitting, lookup and GET end to end proved; encoded separators and POST decoding are wrong (counterexamples)."
  },
  {
   "property": "C121",
   "status": "partial",
   "theorems": [
    "Verif.Http.C121_sound",
    "Verif.Http.C121_exact",
    "Verif.Http.C121_directory_partial",
    "Verif.Http.C121_slash_partial",
    "Verif.Http.C121_hidden_counterexample",
    "Verif.Http.C121_slash_counterexample"
   ],
   "note": "Soundness and exact match proved; directories without other handlers below (partial), hidden directories (counterexamples)."
  },
  {
   "property": "C122",
   "status": "partial",
   "theorems": [
    "Verif.Http.C122_access",
    "Verif.Http.C122_content_counterexample"
   ],
   "note": "Proved for callbacks; static content bypasses the checks (counterexample)."
  },
  {
   "property": "C123",
   "status": "partial",
   "theorems": [
    "Verif.Http.C123_partial",
    "Verif.Http.C123_parent_counterexample",
    "Verif.Http.C123_traversal_counterexample",
    "Verif.Http.C123_uninitialised_counterexample"
   ],
   "note": "False in general (arbitrary relative path opened); partial theorem for URIs starting with /www/."
  },
  {
   "property": "C124",
   "status": "partial",
   "theorems": [
    "Verif.Http.C124_stuck_counterexample",
    "Verif.Http.C124_early_counterexample",
    "Verif.Http.C124_body_counterexample",
    "Verif.Http.C124_post_partial"
   ],
   "note": "Complete CRLF requests proved; later bodies are lost for ever (counterexamples)."
  },
  {
   "property": "C125",
   "status": "proved",
   "theorems": [
    "Verif.Http.C125_pieces",
    "Verif.Http.C125_get"
   ],
   "note": "Proved for all pieces before the end of the header."
  },
  {
   "property": "C126",
   "status": "partial",
   "theorems": [
    "Verif.Http.C126_all",
    "Verif.Http.C126_first_failure",
    "Verif.Http.C126_counterexample"
   ],
   "note": "Order, parameters and first failure proved; URI without slash reads behind its end (counterexample)."
  },
  {
   "property": "C127",
   "status": "partial",
   "theorems": [
    "Verif.Icv.C127_message",
    "Verif.Icv.C127_packet_partial",
    "Verif.Icv.C127_no_block_counterexample",
    "Verif.Icv.C127_validate_partial",
    "Verif.Icv.C127_length_counterexample",
    "Verif.Icv.C127_forged_counterexample"
   ],
   "note": "Messages: full statement; packets: only with a TLV block; default validation: only for values of the right length. Counterexamples: no TLV block, wrong length, a forged message accepted for every key."
  },
  {
   "property": "C128",
   "status": "partial",
   "theorems": [
    "Verif.Icv.C128_message",
    "Verif.Icv.C128_packet",
    "Verif.Icv.C128_two_signatures_counterexample",
    "Verif.Icv.C128_two_ids_counterexample",
    "Verif.Icv.C128_later_counterexample"
   ],
   "note": "Round trip for one signature; counterexamples for two signatures, two key ids and a later invalid ICV TLV. Packets with an empty TLV block are excluded (the check normalises the block away, the signer does not)."
  },
  {
   "property": "C129",
   "status": "proved",
   "theorems": [
    "Verif.Icv.C129_message",
    "Verif.Icv.C129_packet"
   ],
   "note": "Injectivity of the signed data for well-formed messages and packets."
  },
  {
   "property": "C130",
   "status": "partial",
   "theorems": [
    "Verif.Icv.C130_safe_partial",
    "Verif.Icv.C130_safe_packet_partial",
    "Verif.Icv.C130_overflow_counterexample",
    "Verif.Icv.C130_hang_counterexample",
    "Verif.Icv.C130_read_counterexample",
    "Verif.Icv.C130_null_counterexample"
   ],
   "note": "Safety under the stated conditions for messages and packets; counterexamples for each condition: overflow of the buffer, endless loop, read behind the packet, null pointer."
  },
  {
   "property": "C131",
   "status": "partial",
   "theorems": [
    "Verif.Icv.C131_growth_partial",
    "Verif.Icv.C131_growth_packet_partial",
    "Verif.Icv.C131_reserved_counterexample"
   ],
   "note": "The exact growth is proved; the reserved space is never enough when the value has the announced size."
  },
  {
   "property": "C132",
   "status": "partial",
   "theorems": [
    "Verif.Icv.Reg.C132_loaded_partial",
    "Verif.Icv.Reg.C132_no_null_partial",
    "Verif.Icv.Reg.C132_never_active_counterexample",
    "Verif.Icv.Reg.C132_confusion_counterexample"
   ],
   "note": "Invariant over all sequences under the order condition, null-safety of the registration in any case; two general counterexamples."
  },
  {
   "property": "C133",
   "status": "partial",
   "theorems": [
    "Verif.Replay.C133_replay_partial",
    "Verif.Replay.C133_origin",
    "Verif.Replay.C133_forgotten_counterexample",
    "Verif.Replay.C133_restart_counterexample",
    "Verif.Replay.C133_third_counterexample"
   ],
   "note": "Invariant over all runs of two nodes with a hostile network under the stated condition (partial); three counterexamples."
  },
  {
   "property": "C134",
   "status": "partial",
   "theorems": [
    "Verif.Replay.C134_decision_partial",
    "Verif.Replay.C134_handshake",
    "Verif.Replay.C134_first_counterexample",
    "Verif.Replay.C134_lost_counterexample",
    "Verif.Replay.C134_overflow_counterexample"
   ],
   "note": "Exact decision and one-round-trip handshake for all states; three general counterexamples to the unrestricted claim."
  },
  {
   "property": "C135",
   "status": "partial",
   "theorems": [
    "Verif.Replay.C135_timers_partial",
    "Verif.Replay.C135_delay_counterexample"
   ],
   "note": "Invariant over timed runs; general counterexample for every configuration with trigger delay not below the validity time."
  },
  {
   "property": "C136",
   "status": "proved",
   "theorems": [
    "Verif.Dlep.C136_parse",
    "Verif.Dlep.C136_accepts",
    "Verif.Dlep.C136_errors",
    "Verif.Dlep.C136_values",
    "Verif.Dlep.C136_unambiguous",
    "Verif.Dlep.C136_session"
   ],
   "note": "Complete for the stream parser: verdict for every stream, chains of values, memory safety over sequences of streams. The uniqueness of type ids in the table is guaranteed by the AVL tree."
  },
  {
   "property": "C137",
   "status": "partial",
   "theorems": [
    "Verif.Dlep.C137_frames",
    "Verif.Dlep.C137_feed_partial",
    "Verif.Dlep.C137_segmentation_partial",
    "Verif.Dlep.C137_lost_output_counterexample",
    "Verif.Dlep.C137_large_message_counterexample"
   ],
   "note": "Full statement is false for messages above 3072 bytes (limit 4096 minus one block) and for answers of a block in which the session ends; both counterexamples proved, the rest is proved for all segmentations."
  },
  {
   "property": "C138",
   "status": "partial",
   "theorems": [
    "Verif.Dlep.C138_restricted",
    "Verif.Dlep.C138_terminating",
    "Verif.Dlep.C138_malformed",
    "Verif.Dlep.C138_acknowledged",
    "Verif.Dlep.C138_goes_on_counterexample",
    "Verif.Dlep.C138_handler_error_counterexample",
    "Verif.Dlep.C138_terminate_counterexample",
    "Verif.Dlep.C138_heartbeat"
   ],
   "note": "Restriction, malformed messages, acknowledgement and heartbeat are proved; three deviations from RFC 8175 are counterexamples."
  },
  {
   "property": "C139",
   "status": "partial",
   "theorems": [
    "Verif.Dlep.C139_signal",
    "Verif.Dlep.C139_received",
    "Verif.Dlep.C139_oversize_counterexample"
   ],
   "note": "Proved for all signals up to 65535 bytes; the failure of longer ones leaves garbage in the buffer (counterexample). Failures of the output buffer are not modelled."
  },
  {
   "property": "C140",
   "status": "partial",
   "theorems": [
    "Verif.Dlep.C140_heartbeat_partial",
    "Verif.Dlep.C140_heartbeat_counterexample",
    "Verif.Dlep.C140_lid_length",
    "Verif.Dlep.C140_lid",
    "Verif.Dlep.C140_uint64",
    "Verif.Dlep.C140_int64_counterexample",
    "Verif.Dlep.C140_metric",
    "Verif.Dlep.C140_metric_read",
    "Verif.Dlep.C140_status",
    "Verif.Dlep.C140_status_limits",
    "Verif.Dlep.C140_peer_type_partial",
    "Verif.Dlep.C140_peer_type_counterexample",
    "Verif.Dlep.C140_mac",
    "Verif.Dlep.C140_mac_read",
    "Verif.Dlep.C140_ip",
    "Verif.Dlep.C140_ip_read",
    "Verif.Dlep.C140_prefix_counterexample",
    "Verif.Dlep.C140_conpoint",
    "Verif.Dlep.C140_conpoint_read"
   ],
   "note": "Round trip proved per TLV with exact ranges; six counterexamples for values outside of them. The mapping of metrics to the layer-2 database is the identity here; scaling is C68 ff."
  },
  {
   "property": "C141",
   "status": "partial",
   "theorems": [
    "Verif.Dlep.C141_complies_partial",
    "Verif.Dlep.C141_refused",
    "Verif.Dlep.C141_effects_counterexample",
    "Verif.Dlep.C141_unknown_counterexample",
    "Verif.Dlep.C141_other_rules_counterexample"
   ],
   "note": "Callbacks are arbitrary functions. Refusals proved in general; the positive theorem assumes that no inactive rule of another type applies (counterexample shows what happens otherwise)."
  },
  {
   "property": "C142",
   "status": "partial",
   "theorems": [
    "Verif.Dlep.C142_allowed",
    "Verif.Dlep.C142_negotiated_partial",
    "Verif.Dlep.C142_tables",
    "Verif.Dlep.C142_daemon_partial",
    "Verif.Dlep.C142_crash_counterexample",
    "Verif.Dlep.C142_mtu_counterexample"
   ],
   "note": "Allowed TLVs and conflicts proved in general; the negotiation under the two conditions whose violation is a crash (counterexamples, one of them for every list of the peer)."
  },
  {
   "property": "C143",
   "status": "partial",
   "theorems": [
    "Verif.Dlep.C143_update",
    "Verif.Dlep.C143_session_partial",
    "Verif.Dlep.C143_start",
    "Verif.Dlep.C143_shared_counterexample",
    "Verif.Dlep.C143_origin_counterexample"
   ],
   "note": "From the memory of the radio through the bytes of the TLVs (C140) to the registrations of the router. The history theorem assumes that interface addresses are not among the prefixes (counterexample otherwise). Next hops of destinations are not modelled."
  },
  {
   "property": "C144",
   "status": "partial",
   "theorems": [
    "Verif.Dlep.C144_ignored",
    "Verif.Dlep.C144_answered",
    "Verif.Dlep.C144_prefix",
    "Verif.Dlep.C144_discovery_partial",
    "Verif.Dlep.C144_silenced_counterexample",
    "Verif.Dlep.C144_leak_counterexample"
   ],
   "note": "What the session does with the payload is an arbitrary function (see C136 to C142). The discovery theorem starts with an idle interface; the two counterexamples are general over the datagram, the handler and the number of ticks."
  },
  {
   "property": "C145",
   "status": "partial",
   "theorems": [
    "Verif.NhdpIf.C145_families",
    "Verif.NhdpIf.C145_thrifty",
    "Verif.NhdpIf.C145_reached_partial",
    "Verif.NhdpIf.C145_ipv4_lost_counterexample",
    "Verif.NhdpIf.C145_ipv6_lost_counterexample"
   ],
   "note": "C145_families and C145_thrifty hold for all links. Partial: coverage needs partners that are symmetric together; two general counterexamples for dualstack neighbors with one symmetric link. When the cached decision is recalculated is not part of the model."
  },
  {
   "property": "C146",
   "status": "proved",
   "theorems": [
    "Verif.NhdpIf.C146_active",
    "Verif.NhdpIf.C146_removed",
    "Verif.NhdpIf.C146_once",
    "Verif.NhdpIf.C146_global",
    "Verif.NhdpIf.C146_links"
   ],
   "note": "Refinement of the marking loops and timers to a declarative description over the event history. Timers fire exactly on time; the filter decision is a function (C22); allocation succeeds."
  },
  {
   "property": "C147",
   "status": "partial",
   "theorems": [
    "Verif.NhdpIf.C147_users",
    "Verif.NhdpIf.C147_no_freed_partial",
    "Verif.NhdpIf.C147_dangling_counterexample"
   ],
   "note": "Partial: holds if no interface loses its last user while it has links; general counterexample otherwise."
  },
  {
   "property": "C148",
   "status": "partial",
   "theorems": [
    "Verif.Rfc5444.C148_no_freed_partial",
    "Verif.Rfc5444.C148_alive_partial",
    "Verif.Rfc5444.C148_target_counterexample",
    "Verif.Rfc5444.C148_order_counterexample",
    "Verif.Rfc5444.C148_listener_counterexample"
   ],
   "note": "Reference counts of one protocol; full statement fails (three counterexamples), proved for careful users by an invariant over all histories."
  },
  {
   "property": "C149",
   "status": "partial",
   "theorems": [
    "Verif.Rfc5444.C149_packets_partial",
    "Verif.Rfc5444.C149_numbered",
    "Verif.Rfc5444.C149_packets_counterexample",
    "Verif.Rfc5444.C149_messages_partial",
    "Verif.Rfc5444.C149_accepted",
    "Verif.Rfc5444.C149_messages_counterexample"
   ],
   "note": "Packet numbers over all histories of one target without replacement; message numbers without new interface, acceptance by the receiver shown with the duplicate set model; counterexamples for replacement and new interface."
  },
  {
   "property": "C150",
   "status": "partial",
   "theorems": [
    "Verif.Rfc5444.C150_once_partial",
    "Verif.Rfc5444.C150_deadline_partial",
    "Verif.Rfc5444.C150_size",
    "Verif.Rfc5444.C150_nonempty_partial",
    "Verif.Rfc5444.C150_overwrite_counterexample",
    "Verif.Rfc5444.C150_lost_counterexample",
    "Verif.Rfc5444.C150_empty_counterexample"
   ],
   "note": "Invariants over all histories of one target; missing: replacement of the target (messages lost), overwritten interval, too large forwarded messages (counterexamples)."
  },
  {
   "property": "C151",
   "status": "partial",
   "theorems": [
    "Verif.Rfc5444.C151_follows_partial",
    "Verif.Rfc5444.C151_no_port",
    "Verif.Rfc5444.C151_port_counterexample",
    "Verif.Rfc5444.C151_unicast_counterexample",
    "Verif.Rfc5444.C151_section_partial",
    "Verif.Rfc5444.C151_section_counterexample"
   ],
   "note": "All sequences of configuration events with one port of the protocol; counterexamples for a second port, the unicast interface and the section handler."
  },
  {
   "property": "C152",
   "status": "partial",
   "theorems": [
    "Verif.Stream.C152_counter",
    "Verif.Stream.C152_limit_partial",
    "Verif.Stream.C152_limit_untouched_partial",
    "Verif.Stream.C152_refused_partial",
    "Verif.Stream.C152_limit_counterexample",
    "Verif.Stream.C152_leak_counterexample"
   ],
   "note": "Counter explained by the history in all runs; limit proved up to the number of turned-away clients, which is exact (general counterexample for every limit and excess); refusal proved without failed initialisations, counterexample with them. 32-bit overflow of the counter not modelled."
  },
  {
   "property": "C153",
   "status": "partial",
   "theorems": [
    "Verif.Stream.C153_in_order",
    "Verif.Stream.C153_complete",
    "Verif.Stream.C153_quiet",
    "Verif.Stream.C153_input_limit",
    "Verif.Stream.C153_idle",
    "Verif.Stream.C153_armed_partial",
    "Verif.Stream.C153_refused_connect",
    "Verif.Stream.C153_eof_counterexample",
    "Verif.Stream.C153_copy_counterexample",
    "Verif.Stream.C153_underrun_counterexample"
   ],
   "note": "Order, completeness, silence after the end, input limit, timeout and failed connects proved for all environments; waiting for output proved without the (unused) underrun callback; counterexamples for half-closed connections, files and the underrun callback. Callbacks only append to the output and take from the front of the input."
  },
  {
   "property": "C154",
   "status": "partial",
   "theorems": [
    "Verif.Stream.C154_once_partial",
    "Verif.Stream.C154_remove",
    "Verif.Stream.C154_clean_partial",
    "Verif.Stream.C154_deferred",
    "Verif.Stream.C154_force_counterexample",
    "Verif.Stream.C154_sticky_counterexample"
   ],
   "note": "Exactly-once closing proved until the list is reinitialised with members; effect of removal and deferral proved; counterexamples for forced removal and for the sticky mark. Users that free the socket in cleanup_socket are not modelled."
  },
  {
   "property": "C155",
   "status": "partial",
   "theorems": [
    "Verif.Stream.C155_address_partial",
    "Verif.Stream.C155_none",
    "Verif.Stream.C155_follows",
    "Verif.Stream.C155_address_counterexample",
    "Verif.Stream.C155_clients_counterexample"
   ],
   "note": "Choice of address, completeness and rebinding proved; filter proved unless it rejects first (counterexample); access list of clients: general counterexample over all configurations."
  },
  {
   "property": "C156",
   "status": "proved",
   "theorems": [
    "Verif.Telnet.C156_requests",
    "Verif.Telnet.C156_goes_on",
    "Verif.Telnet.C156_quit"
   ],
   "note": "Proved over all histories without end of the connection, for all command sets and effects. Commands are functions of a world sequence; output written by external commands is abstract."
  },
  {
   "property": "C157",
   "status": "partial",
   "theorems": [
    "Verif.Telnet.C157_input_returns",
    "Verif.Telnet.C157_closing_partial",
    "Verif.Telnet.C157_unfinished_counterexample",
    "Verif.Telnet.C157_open_counterexample"
   ],
   "note": "Returning proved for every input of an open connection and for closing without an incomplete line; the two counterexamples are general (all sessions with the property)."
  },
  {
   "property": "C158",
   "status": "partial",
   "theorems": [
    "Verif.Telnet.C158_one_partial",
    "Verif.Telnet.C158_closed_partial",
    "Verif.Telnet.C158_execute_partial",
    "Verif.Telnet.C158_route_counterexample",
    "Verif.Telnet.C158_stack_counterexample"
   ],
   "note": "Proved for commands that look at the stop handler before setting theirs; counterexamples with route, which does not."
  },
  {
   "property": "C159",
   "status": "proved",
   "theorems": [
    "Verif.Telnet.C159_access",
    "Verif.Telnet.C159_execute"
   ],
   "note": "Proved for all histories and for execution without connection."
  },
  {
   "property": "C160",
   "status": "partial",
   "theorems": [
    "Verif.Telnet.C160_prompt",
    "Verif.Telnet.C160_unknown",
    "Verif.Telnet.C160_called",
    "Verif.Telnet.C160_echo_counterexample"
   ],
   "note": "Prompt, unknown and called commands proved; counterexample for the echo, general."
  },
  {
   "property": "C161",
   "status": "partial",
   "theorems": [
    "Verif.Telnet.C161_same_word",
    "Verif.Telnet.C161_order_partial",
    "Verif.Telnet.C161_order_counterexample",
    "Verif.Telnet.C161_overread_counterexample"
   ],
   "note": "Equality proved for all texts of 7-bit and 8-bit characters without NUL, order for texts without control characters; counterexamples for the rest and for the overread."
  },
  {
   "property": "C162",
   "status": "partial",
   "theorems": [
    "Verif.Telnet.C162_seconds_partial",
    "Verif.Telnet.C162_seconds_counterexample",
    "Verif.Telnet.C162_applied",
    "Verif.Telnet.C162_configured_counterexample",
    "Verif.Telnet.C162_forever_counterexample"
   ],
   "note": "Proved up to 4294967 seconds; counterexamples: wrap, configured timeout lost (general over histories), no timeout at all."
  },
  {
   "property": "C163",
   "status": "partial",
   "theorems": [
    "Verif.Log.C163_delivered_partial",
    "Verif.Log.C163_warnings",
    "Verif.Log.C163_counted",
    "Verif.Log.C163_null_counterexample",
    "Verif.Log.C163_endless_counterexample",
    "Verif.Log.C163_text_counterexample"
   ],
   "note": "Proved over all histories for handlers that cause no further messages; counters proved in general; three counterexamples, two of them general. Growth of the shared buffer (dangling pointers) is not modelled."
  },
  {
   "property": "C164",
   "status": "partial",
   "theorems": [
    "Verif.Log.C164_levels",
    "Verif.Log.C164_targets_partial",
    "Verif.Log.C164_file_counterexample"
   ],
   "note": "Severities proved for all configurations; targets proved from every state whose file is the configured one; counterexample general."
  },
  {
   "property": "C165",
   "status": "partial",
   "theorems": [
    "Verif.Log.C165_names",
    "Verif.Log.C165_entries_partial",
    "Verif.Log.C165_add_partial",
    "Verif.Log.C165_remove_partial",
    "Verif.Log.C165_severity_counterexample",
    "Verif.Log.C165_refused_counterexample",
    "Verif.Log.C165_all_counterexample",
    "Verif.Log.C165_lower_counterexample"
   ],
   "note": "Proved for the severities debug, info, warn and known sources with distinct names; four counterexamples."
  },
  {
   "property": "C166",
   "status": "proved",
   "theorems": [
    "Verif.Log.C166_number",
    "Verif.Log.C166_distinct"
   ],
   "note": "Proved for all histories (strdup does not fail)."
  },
  {
   "property": "C167",
   "status": "partial",
   "theorems": [
    "Verif.Log.Route.C167_request_partial",
    "Verif.Log.Route.C167_checked",
    "Verif.Log.Route.C167_refused",
    "Verif.Log.Route.C167_metric_counterexample",
    "Verif.Log.Route.C167_prefix_counterexample",
    "Verif.Log.Route.C167_table_counterexample"
   ],
   "note": "Proved for all parsers and commands without metric, with one family and table and protocol below 256; checks and refusals proved in general; three counterexamples."
  },
  {
   "property": "C168",
   "status": "partial",
   "theorems": [
    "Verif.Packet.C168_order_partial",
    "Verif.Packet.C168_progress",
    "Verif.Packet.C168_empty_counterexample",
    "Verif.Packet.C168_long_counterexample"
   ],
   "note": "Datagrams of 1 to 65535 bytes; counterexamples for empty ones (sent twice) and for 65536 bytes (framing lost)."
  },
  {
   "property": "C169",
   "status": "partial",
   "theorems": [
    "Verif.Packet.C169_received_partial",
    "Verif.Packet.C169_acl_counterexample",
    "Verif.Packet.C169_truncated_counterexample",
    "Verif.Packet.C169_raw_counterexample"
   ],
   "note": "UDP sockets and datagrams that fit; the access list of managed UDP sockets is never consulted (counterexample for every list)."
  },
  {
   "property": "C170",
   "status": "partial",
   "theorems": [
    "Verif.Packet.C170_places_partial",
    "Verif.Packet.C170_options_partial",
    "Verif.Packet.C170_settles_partial",
    "Verif.Packet.C170_endless_counterexample",
    "Verif.Packet.C170_raw_counterexample",
    "Verif.Packet.C170_protocol_counterexample",
    "Verif.Packet.C170_options_counterexample",
    "Verif.Packet.C170_silent_counterexample",
    "Verif.Packet.C170_interface_partial",
    "Verif.Packet.C170_interface_counterexample"
   ],
   "note": "Places for all previous states if opening succeeds, options for new sockets, settling for UDP histories unless only the multicast socket fails; six counterexamples."
  },
  {
   "property": "C171",
   "status": "partial",
   "theorems": [
    "Verif.Packet.C171_limit",
    "Verif.Packet.C171_reported",
    "Verif.Packet.C171_rare",
    "Verif.Packet.C171_number_counterexample"
   ],
   "note": "Bound 22 is reached (example). Counterexample for the number in the text."
  },
  {
   "property": "C172",
   "status": "partial",
   "theorems": [
    "Verif.Import.C172_sections_partial",
    "Verif.Import.C172_long_counterexample",
    "Verif.Import.C172_prefix_counterexample"
   ],
   "note": "Names that fit are proved for all histories; counterexamples for long names."
  },
  {
   "property": "C173",
   "status": "partial",
   "theorems": [
    "Verif.Import.C173_selection_partial",
    "Verif.Import.C173_vanished_counterexample",
    "Verif.Import.C173_zero_counterexample"
   ],
   "note": "Selection proved for interfaces with a name; counterexamples for vanished interfaces and the documented meaning of 0."
  },
  {
   "property": "C174",
   "status": "partial",
   "theorems": [
    "Verif.Import.C174_new_partial",
    "Verif.Import.C174_removed_partial",
    "Verif.Import.C174_follows_partial",
    "Verif.Import.C174_twin_counterexample",
    "Verif.Import.C174_config_counterexample",
    "Verif.Import.C174_metric_counterexample"
   ],
   "note": "Single events for any number of sections, histories for one section; missing: histories of several sections and reconfiguration, which the counterexamples refute."
  },
  {
   "property": "C175",
   "status": "partial",
   "theorems": [
    "Verif.Import.C175_doubles_partial",
    "Verif.Import.C175_freed_counterexample",
    "Verif.Import.C175_section_counterexample",
    "Verif.Import.C175_domain_counterexample"
   ],
   "note": "Doubling proved while the entry lives and all domains have the same metric; counterexamples after removal and for new domains."
  },
  {
   "property": "C176",
   "status": "partial",
   "theorems": [
    "Verif.Import.C176_first_partial",
    "Verif.Import.C176_domain_counterexample"
   ],
   "note": "Proved for names that fit; the domain is the index of the code, see the counterexample."
  },
  {
   "property": "C177",
   "status": "partial",
   "theorems": [
    "Verif.Import.C177_added_partial",
    "Verif.Import.C177_removed_partial",
    "Verif.Import.C177_late_counterexample",
    "Verif.Import.C177_section_counterexample",
    "Verif.Import.C177_other_counterexample",
    "Verif.Import.C177_domain_counterexample",
    "Verif.Import.C177_shared_counterexample"
   ],
   "note": "Single additions and removals proved; the lifetime claim is refuted by the counterexamples."
  },
  {
   "property": "C178",
   "status": "partial",
   "theorems": [
    "Verif.Ll4.C178_hash_partial",
    "Verif.Ll4.C178_range",
    "Verif.Ll4.C178_predicts_partial",
    "Verif.Ll4.C178_char_counterexample"
   ],
   "note": "The hash is Jenkins' one for bytes below 128 or unsigned char, range and prediction hold for nodes that agree about char; counterexample for signed char."
  },
  {
   "property": "C179",
   "status": "partial",
   "theorems": [
    "Verif.Ll4.C179_free",
    "Verif.Ll4.C179_range_partial",
    "Verif.Ll4.C179_ends_partial",
    "Verif.Ll4.C179_endless_counterexample",
    "Verif.Ll4.C179_reserved_counterexample"
   ],
   "note": "C179_free holds for all histories; termination and range are partial: counterexamples for the endless loop (for every fuel) and the adopted address."
  },
  {
   "property": "C180",
   "status": "partial",
   "theorems": [
    "Verif.Ll4.C180_removes_partial",
    "Verif.Ll4.C180_hands_off",
    "Verif.Ll4.C180_gives_way",
    "Verif.Ll4.C180_user_counterexample",
    "Verif.Ll4.C180_replaced_counterexample",
    "Verif.Ll4.C180_stays_counterexample"
   ],
   "note": "C180_hands_off and C180_gives_way in full; what is removed is proved, including the cases in which it belongs to somebody else (counterexamples)."
  },
  {
   "property": "C181",
   "status": "partial",
   "theorems": [
    "Verif.Ll4.C181_settles",
    "Verif.Ll4.C181_removed_partial",
    "Verif.Ll4.C181_silent",
    "Verif.Ll4.C181_leak_counterexample",
    "Verif.Ll4.C181_delay_counterexample",
    "Verif.Ll4.C181_twice_counterexample"
   ],
   "note": "C181_settles and C181_silent in full; removal at the end holds while the plugin is on; counterexamples for switching off, delay 0 and unanswered requests."
  },
  {
   "property": "C182",
   "status": "partial",
   "theorems": [
    "Verif.Netlink.C182_attributes",
    "Verif.Netlink.C182_bounds",
    "Verif.Netlink.C182_messages_partial",
    "Verif.Netlink.C182_unaligned_counterexample"
   ],
   "note": "Round trip for all attribute lists; bounds; framing of aligned messages. Counterexample: messages of other lengths are not padded (os_system_linux.c:382)."
  },
  {
   "property": "C183",
   "status": "partial",
   "theorems": [
    "Verif.Netlink.C183_order",
    "Verif.Netlink.C183_lossless_partial",
    "Verif.Netlink.C183_window",
    "Verif.Netlink.C183_size",
    "Verif.Netlink.C183_lost_counterexample"
   ],
   "note": "Invariant over all histories and clients. Partial: losslessness needs that sendmsg takes the buffers. Counterexample: EAGAIN (os_system_linux.c:541-542)."
  },
  {
   "property": "C184",
   "status": "partial",
   "theorems": [
    "Verif.Netlink.C184_answers",
    "Verif.Netlink.C184_dump",
    "Verif.Netlink.C184_ends_counterexample",
    "Verif.Netlink.C184_failed_counterexample"
   ],
   "note": "Datagrams of acknowledgements/errors of any number, and ends of dumps. Counterexamples: two ends in a datagram, end and answer with the same number, failed sendmsg."
  },
  {
   "property": "C185",
   "status": "partial",
   "theorems": [
    "Verif.Netlink.C185_live_partial",
    "Verif.Netlink.C185_drains",
    "Verif.Netlink.C185_timeout_counterexample",
    "Verif.Netlink.C185_fail_counterexample",
    "Verif.Netlink.C185_timer_counterexample"
   ],
   "note": "Invariant over all histories of a kernel without failures; constructed drain. Counterexamples: repeated request after timeout (for all later timeouts and socket events) and after a failed sendmsg, timer stopped by the end of a dump."
  },
  {
   "property": "C186",
   "status": "partial",
   "theorems": [
    "Verif.OsIf.C186_attributes",
    "Verif.OsIf.C186_addresses_partial",
    "Verif.OsIf.C186_others",
    "Verif.OsIf.C186_shortcuts",
    "Verif.OsIf.C186_kinds",
    "Verif.OsIf.C186_kinds6",
    "Verif.OsIf.C186_gone_counterexample",
    "Verif.OsIf.C186_mac_counterexample"
   ],
   "note": "Induction over messages; shortcuts as invariant; kinds of addresses in arithmetic. Partial: if_indextoname must resolve the interface; counterexamples for interfaces that went away (all later messages) and hardware addresses of 20 bytes."
  },
  {
   "property": "C187",
   "status": "partial",
   "theorems": [
    "Verif.OsIf.C187_both",
    "Verif.OsIf.C187_three",
    "Verif.OsIf.C187_single",
    "Verif.OsIf.C187_stuck_counterexample",
    "Verif.OsIf.C187_lost_counterexample"
   ],
   "note": "Invariant over all histories of the query machine (finite state, checked completely), and the machine as client of the netlink queue of C183: deadlock after timeout, failure or EAGAIN, proved for all later events but late datagrams."
  },
  {
   "property": "C188",
   "status": "partial",
   "theorems": [
    "Verif.OsIf.C188_many_partial",
    "Verif.OsIf.C188_single_partial",
    "Verif.OsIf.C188_fire",
    "Verif.OsIf.C188_new_counterexample",
    "Verif.OsIf.C188_failed_counterexample",
    "Verif.OsIf.C188_noaddress_counterexample"
   ],
   "note": "Partial: one listener, or several without failing handlers and without later additions. Counterexamples otherwise, and for interfaces without addresses (all histories)."
  },
  {
   "property": "C189",
   "status": "partial",
   "theorems": [
    "Verif.OsIf.C189_on_partial",
    "Verif.OsIf.C189_once_partial",
    "Verif.OsIf.C189_two_counterexample",
    "Verif.OsIf.C189_again_counterexample",
    "Verif.OsIf.C189_kept_counterexample",
    "Verif.OsIf.C189_section_counterexample",
    "Verif.OsIf.C189_loopback_counterexample"
   ],
   "note": "Partial: only additions, or first use of the first interface. Counterexamples: _cleanup_mesh never resets flags.mesh, and four others."
  },
  {
   "property": "C190",
   "status": "partial",
   "theorems": [
    "Verif.OsIf.C190_once",
    "Verif.OsIf.C190_answer",
    "Verif.OsIf.C190_timeout_counterexample"
   ],
   "note": "Permutation invariant over all histories; counterexample: _cb_rtnetlink_timeout with any waiting request."
  },
  {
   "property": "C191",
   "status": "partial",
   "theorems": [
    "Verif.RtNl.C191_set",
    "Verif.RtNl.C191_remove",
    "Verif.RtNl.C191_numbers",
    "Verif.RtNl.C191_refused",
    "Verif.RtNl.C191_source_counterexample",
    "Verif.RtNl.C191_mixed_counterexample"
   ],
   "note": "Round trip for all proper routes through the bytes of the message; refusal characterised. Counterexamples: the source prefix of IPv4 routes is left out; an IPv6 source with an IPv4 destination is not refused."
  },
  {
   "property": "C192",
   "status": "partial",
   "theorems": [
    "Verif.RtNl.C192_filter",
    "Verif.RtNl.C192_own",
    "Verif.RtNl.C192_wildcard",
    "Verif.RtNl.C192_anysource_counterexample"
   ],
   "note": "Filter characterised for all filters and routes. Counterexample: a filter with the source 0/0 finds no route without source prefix."
  },
  {
   "property": "C193",
   "status": "partial",
   "theorems": [
    "Verif.RtNl.C193_once",
    "Verif.RtNl.C193_answer",
    "Verif.RtNl.C193_timeout",
    "Verif.RtNl.C193_requests_partial",
    "Verif.RtNl.C193_endless_counterexample",
    "Verif.RtNl.C193_new_counterexample",
    "Verif.RtNl.C193_interrupt_counterexample",
    "Verif.RtNl.C193_twice_counterexample"
   ],
   "note": "Once per request over all histories; timeouts with callbacks that make requests only if the loop ends. Counterexamples: endless loop, new requests told of the old timeout, interrupt of the next request, second request for a waiting object."
  },
  {
   "property": "C194",
   "status": "partial",
   "theorems": [
    "Verif.RtNl.C194_query",
    "Verif.RtNl.C194_change_partial",
    "Verif.RtNl.C194_swallowed_counterexample",
    "Verif.RtNl.C194_deleted_counterexample"
   ],
   "note": "Counterexamples: notifications with the sequence number of a waiting request are lost or reported as found routes."
  },
  {
   "property": "C195",
   "status": "partial",
   "theorems": [
    "Verif.L2Export.C195_routes_partial",
    "Verif.L2Export.C195_settled",
    "Verif.L2Export.C195_two_counterexample",
    "Verif.L2Export.C195_waiting_counterexample",
    "Verif.L2Export.C195_flap_counterexample",
    "Verif.L2Export.C195_overlap_counterexample",
    "Verif.L2Export.C195_failed_counterexample"
   ],
   "note": "Proved for one section, one neighbor at a time, no failed requests. Counterexamples: two neighbors, second request while waiting, flapping, overlapping sections, failed request."
  },
  {
   "property": "C196",
   "status": "partial",
   "theorems": [
    "Verif.L2Export.C196_removed",
    "Verif.L2Export.C196_changed_counterexample",
    "Verif.L2Export.C196_table_counterexample"
   ],
   "note": "Removal proved. Counterexamples: new and changed sections have no effect on existing addresses and routes; tables above 255."
  },
  {
   "property": "C197",
   "status": "partial",
   "theorems": [
    "Verif.L2Export.C197_pattern",
    "Verif.L2Export.C197_long_counterexample"
   ],
   "note": "Patterns characterised. Counterexample: names with more than 15 characters."
  },
  {
   "property": "C198",
   "status": "partial",
   "theorems": [
    "Verif.DlepDest.C198_init",
    "Verif.DlepDest.C198_told_partial",
    "Verif.DlepDest.C198_options",
    "Verif.DlepDest.C198_default_counterexample",
    "Verif.DlepDest.C198_default_witness_counterexample",
    "Verif.DlepDest.C198_proxied_counterexample",
    "Verif.DlepDest.C198_timeout_counterexample",
    "Verif.DlepDest.C198_shared_counterexample",
    "Verif.DlepDest.C198_update_counterexample"
   ],
   "note": "Announcements after the initialization, and the exact content of the messages in runs without timeouts, lost sessions and shared destinations. False with the default configuration, see the counterexamples."
  },
  {
   "property": "C199",
   "status": "partial",
   "theorems": [
    "Verif.DlepDest.C199_waiting_partial",
    "Verif.DlepDest.C199_up",
    "Verif.DlepDest.C199_change",
    "Verif.DlepDest.C199_down",
    "Verif.DlepDest.C199_other",
    "Verif.DlepDest.C199_unknown_counterexample",
    "Verif.DlepDest.C199_order_counterexample",
    "Verif.DlepDest.C199_late_counterexample"
   ],
   "note": "Effect of acknowledgements; no crash while nothing happens to a destination that waits for an answer. An answer for an unknown destination, even in order, crashes the radio."
  },
  {
   "property": "C200",
   "status": "partial",
   "theorems": [
    "Verif.DlepDest.C200_lost",
    "Verif.DlepDest.C200_deaf_counterexample",
    "Verif.DlepDest.C200_timer_counterexample",
    "Verif.DlepDest.C200_timer_partial",
    "Verif.DlepDest.C200_early_counterexample"
   ],
   "note": "The list of sessions is right; listeners of all sessions are removed with any of them, timers survive their session, destinations are announced before the initialization."
  },
  {
   "property": "C201",
   "status": "partial",
   "theorems": [
    "Verif.DlepDest.C201_mirror_partial",
    "Verif.DlepDest.C201_acks",
    "Verif.DlepDest.C201_first",
    "Verif.DlepDest.C201_frame",
    "Verif.DlepDest.C201_stop",
    "Verif.DlepDest.C201_nometrics_counterexample",
    "Verif.DlepDest.C201_second_counterexample",
    "Verif.DlepDest.C201_shared_counterexample"
   ],
   "note": "End to end with the radio of C198 for orderly histories whose messages carry metrics; destinations without metrics stay, a second withdrawal ends the session."
  },
  {
   "property": "C202",
   "status": "partial",
   "theorems": [
    "Verif.DlepDest.Offer.C202_best_partial",
    "Verif.DlepDest.Offer.C202_malformed",
    "Verif.DlepDest.Offer.C202_fallback",
    "Verif.DlepDest.Offer.C202_port_counterexample",
    "Verif.DlepDest.Offer.C202_tls_counterexample"
   ],
   "note": "Choice among usable connection points proved; without one the port is uninitialized or that of an offer with TLS."
  },
  {
   "property": "C203",
   "status": "partial",
   "theorems": [
    "Verif.DlepDest.Fd.C203_descriptors_partial",
    "Verif.DlepDest.Fd.C203_zero_counterexample",
    "Verif.DlepDest.Fd.C203_victim_counterexample",
    "Verif.DlepDest.Fd.C203_refused_counterexample",
    "Verif.DlepDest.Fd.C203_objects_counterexample",
    "Verif.DlepDest.Fd.C203_remove"
   ],
   "note": "Holds while only the other side closes connections; each removal closes descriptor 0, failed connections leak their socket, sessions closed by the other side leak their object."
  },
  {
   "property": "C204",
   "status": "partial",
   "theorems": [
    "Verif.Sched.C204_called",
    "Verif.Sched.C204_freed_partial",
    "Verif.Sched.C204_freed_counterexample",
    "Verif.Sched.C204_own_counterexample",
    "Verif.Sched.C204_removed_counterexample",
    "Verif.Sched.C204_hangup_counterexample"
   ],
   "note": "Handlers are arbitrary functions. Exactness for handlers that free nothing; safety for handlers that free no socket with an event still to come and not slowly their own. Fails otherwise (C204_freed_counterexample, C204_own_counterexample), for sockets removed by an earlier handler (C204_removed_counterexample) and for hang-ups (C204_hangup_counterexample)."
  },
  {
   "property": "C205",
   "status": "partial",
   "theorems": [
    "Verif.Sched.C205_interest_partial",
    "Verif.Sched.C205_again_counterexample",
    "Verif.Sched.C205_early_counterexample"
   ],
   "note": "Holds for sockets that are added with a fresh descriptor; fails for sockets added again (C205_again_counterexample) and for wishes before adding (C205_early_counterexample)."
  },
  {
   "property": "C206",
   "status": "partial",
   "theorems": [
    "Verif.Sched.C206_wait",
    "Verif.Sched.C206_past",
    "Verif.Sched.C206_stop",
    "Verif.Sched.C206_signal",
    "Verif.Sched.C206_round",
    "Verif.Sched.C206_shutdown",
    "Verif.Sched.C206_limit",
    "Verif.Sched.C206_late_partial",
    "Verif.Sched.C206_signals_counterexample",
    "Verif.Sched.C206_hangup_counterexample"
   ],
   "note": "The next timer is taken from the timer model (C27, C59). The clock of the round is used: the wait is late by the time of the timers (C206_late_partial), and begins anew with every signal (C206_signals_counterexample); a hang-up keeps the loop busy (C206_hangup_counterexample)."
  },
  {
   "property": "C207",
   "status": "partial",
   "theorems": [
    "Verif.Sched.C207_reload",
    "Verif.Sched.C207_commit",
    "Verif.Sched.C207_quiet",
    "Verif.Sched.C207_exit",
    "Verif.Sched.C207_failed",
    "Verif.Sched.C207_end",
    "Verif.Sched.C207_apply_counterexample",
    "Verif.Sched.C207_deaf_counterexample"
   ],
   "note": "Fails for configurations that cannot be read (C207_deaf_counterexample) or applied (C207_apply_counterexample)."
  },
  {
   "property": "C208",
   "status": "partial",
   "theorems": [
    "Verif.Probing.C208_choice",
    "Verif.Probing.C208_sent",
    "Verif.Probing.C208_quiet",
    "Verif.Probing.C208_times",
    "Verif.Probing.C208_target",
    "Verif.Probing.C208_fair",
    "Verif.Probing.C208_address_counterexample"
   ],
   "note": "choice, times, probes and fairness proved for all runs; the address is the one known when the link was probed first (counterexample)"
  },
  {
   "property": "C209",
   "status": "partial",
   "theorems": [
    "Verif.OldLan.C209_values_partial",
    "Verif.OldLan.C209_refused",
    "Verif.OldLan.C209_nonzero",
    "Verif.OldLan.C209_validated",
    "Verif.OldLan.C209_errno_counterexample",
    "Verif.OldLan.C209_range",
    "Verif.OldLan.C209_wrap_counterexample"
   ],
   "note": "values proved for legal parameters without an old error number; counterexamples: stale errno, numbers modulo 2^32"
  },
  {
   "property": "C210",
   "status": "partial",
   "theorems": [
    "Verif.OldLan.C210_change_partial",
    "Verif.OldLan.C210_domains",
    "Verif.OldLan.C210_skipped",
    "Verif.OldLan.C210_order_counterexample"
   ],
   "note": "proved if the domains named exist already; counterexample: networks for all domains miss domains created by later lines"
  },
  {
   "property": "C211",
   "status": "partial",
   "theorems": [
    "Verif.OldLan.C211_sections_partial",
    "Verif.OldLan.C211_exchange_counterexample"
   ],
   "note": "proved for prefixes that at most one section concerns last; counterexample: two sections that exchange their prefixes"
  },
  {
   "property": "C212",
   "status": "partial",
   "theorems": [
    "Verif.LinkCfg.C212_stored_partial",
    "Verif.LinkCfg.C212_rest",
    "Verif.LinkCfg.C212_again_counterexample",
    "Verif.LinkCfg.C212_flap_counterexample",
    "Verif.LinkCfg.C212_section_counterexample",
    "Verif.LinkCfg.C212_name_counterexample"
   ],
   "note": "Proved for the first application and for data that is not configured any more; values that are applied again are removed, sections and names are mixed up (four counterexamples)."
  },
  {
   "property": "C213",
   "status": "partial",
   "theorems": [
    "Verif.ConstMetric.C213_config",
    "Verif.ConstMetric.C213_cost",
    "Verif.ConstMetric.C213_partner_counterexample",
    "Verif.ConstMetric.C213_current_partial",
    "Verif.ConstMetric.C213_learn_counterexample"
   ],
   "note": "Search order and configuration proved outright; counterexample for partners without originator; currency of metrics proved as long as originators do not change, counterexample otherwise."
  },
  {
   "property": "C214",
   "status": "partial",
   "theorems": [
    "Verif.NhdpCheck.C214_callbacks",
    "Verif.NhdpCheck.C214_passes_partial",
    "Verif.NhdpCheck.C214_complete_partial",
    "Verif.NhdpCheck.C214_addresses_counterexample",
    "Verif.NhdpCheck.C214_message_counterexample"
   ],
   "note": "Header and times proved in both directions; the callback for addresses is proved correct, but is called with the TLVs of the message only (counterexamples)."
  },
  {
   "property": "C215",
   "status": "partial",
   "theorems": [
    "Verif.L2Import.C215_last_partial",
    "Verif.L2Import.C215_reload_partial",
    "Verif.L2Import.C215_special",
    "Verif.L2Import.C215_alternative_counterexample",
    "Verif.L2Import.C215_type_counterexample",
    "Verif.L2Import.C215_wait_counterexample",
    "Verif.L2Import.C215_name_counterexample",
    "Verif.L2Import.C215_filter",
    "Verif.L2Import.C215_gone_counterexample",
    "Verif.L2Import.C215_stale_counterexample"
   ],
   "note": "Proved for ordinary events and for reloads; alternative routes, mixed types, missing hardware addresses and routes without interface are defects of the code (counterexamples)."
  },
  {
   "property": "C216",
   "status": "partial",
   "theorems": [
    "Verif.L2Import.C216_removed",
    "Verif.L2Import.C216_changed",
    "Verif.L2Import.C216_names",
    "Verif.L2Import.C216_listener_counterexample",
    "Verif.L2Import.C216_filter_counterexample",
    "Verif.L2Import.C216_stays_counterexample"
   ],
   "note": "Removal takes exactly the own entries; the listener stays (dangling) and entries of an old filter stay (counterexamples)."
  },
  {
   "property": "C217",
   "status": "partial",
   "theorems": [
    "Verif.L2Config.C217_data",
    "Verif.L2Config.C217_ip_partial",
    "Verif.L2Config.C217_again_partial",
    "Verif.L2Config.C217_removed_counterexample",
    "Verif.L2Config.C217_peer_counterexample",
    "Verif.L2Config.C217_dest_counterexample",
    "Verif.L2Config.C217_steal_counterexample",
    "Verif.L2Config.C217_telnet_remove_counterexample",
    "Verif.L2Config.C217_telnet_add_counterexample"
   ],
   "note": "Values of data entries are proved outright; removed sections, radio addresses, destinations, addresses of others and the telnet commands are defects of the code (counterexamples)."
  },
  {
   "property": "C218",
   "status": "partial",
   "theorems": [
    "Verif.L2Config.C218_single_partial",
    "Verif.L2Config.C218_lost_counterexample"
   ],
   "note": "Holds for one interface; with two the double insertion loses the tree (counterexample)."
  },
  {
   "property": "C219",
   "status": "partial",
   "theorems": [
    "Verif.Nl80211.C219_counter_partial",
    "Verif.Nl80211.C219_fast_counterexample",
    "Verif.Nl80211.C219_restart_counterexample",
    "Verif.Nl80211.C219_bitrate_partial",
    "Verif.Nl80211.C219_bitrate16_partial",
    "Verif.Nl80211.C219_mega_counterexample",
    "Verif.Nl80211.C219_multicast_partial",
    "Verif.Nl80211.C219_multicast_counterexample",
    "Verif.Nl80211.C219_max",
    "Verif.Nl80211.C219_max_other",
    "Verif.Nl80211.C219_ht",
    "Verif.Nl80211.C219_vht_counterexample"
   ],
   "note": "Counters below 2^31 per interval, maxima of 802.11n; faster and restarted counters, units, 802.11ac and multicast rates are defects of the code (counterexamples)."
  },
  {
   "property": "C220",
   "status": "partial",
   "theorems": [
    "Verif.Nl80211.C220_reported",
    "Verif.Nl80211.C220_blocked",
    "Verif.Nl80211.C220_round_partial",
    "Verif.Nl80211.C220_stale_counterexample",
    "Verif.Nl80211.C220_objects_counterexample",
    "Verif.Nl80211.C220_taken",
    "Verif.Nl80211.C220_counts",
    "Verif.Nl80211.C220_neighbors",
    "Verif.Nl80211.C220_destinations"
   ],
   "note": "Exact for series that changed data of the network; otherwise nothing is removed, and objects and destinations never are (counterexamples)."
  },
  {
   "property": "C221",
   "status": "partial",
   "theorems": [
    "Verif.Nl80211.C221_series_partial",
    "Verif.Nl80211.C221_timer",
    "Verif.Nl80211.C221_first",
    "Verif.Nl80211.C221_family_counterexample",
    "Verif.Nl80211.C221_removed_counterexample"
   ],
   "note": "The whole series is proved for any interfaces; a failed family query stops the plugin for ever and removed interfaces are used (counterexamples)."
  },
  {
   "property": "C222",
   "status": "proved",
   "theorems": [
    "Verif.Nl80211.C222_interfaces"
   ],
   "note": "Names of interfaces are numbers; sections with the same physical interface are not distinguished."
  },
  {
   "property": "C223",
   "status": "partial",
   "theorems": [
    "Verif.WReg.C223_in_use",
    "Verif.WReg.C223_order",
    "Verif.WReg.C223_once",
    "Verif.WReg.C223_stale_counterexample",
    "Verif.WReg.C223_cleanup",
    "Verif.WReg.C223_forward_counterexample"
   ],
   "note": "Proved by a simulation between the registry and the books of the users over all histories (C223_in_use, C223_order, C223_once, C223_cleanup). Counterexamples: an unregistered message with providers of others is still generated with the header callback of its owner; the cleanup leaves forward handlers linked."
  },
  {
   "property": "C224",
   "status": "partial",
   "theorems": [
    "Verif.WReg.C224_addresses",
    "Verif.WReg.C224_tlvs",
    "Verif.WReg.C224_accepted",
    "Verif.WReg.C224_next",
    "Verif.WReg.C224_mandatory_counterexample"
   ],
   "note": "C224_addresses, C224_tlvs, C224_accepted, C224_next for all sequences of calls. Counterexample: an address first asked for as optional and later as mandatory stays behind the optional ones before it."
  },
  {
   "property": "C225",
   "status": "partial",
   "theorems": [
    "Verif.DomReg.C225_active_partial",
    "Verif.DomReg.C225_configured_partial",
    "Verif.DomReg.C225_others",
    "Verif.DomReg.C225_removed_counterexample",
    "Verif.DomReg.C225_flooding_counterexample",
    "Verif.DomReg.C225_late_counterexample",
    "Verif.DomReg.C225_wildcard_counterexample"
   ],
   "note": "C225_active_partial and C225_configured_partial for all histories in which an algorithm is removed only while at most one domain of the list uses it; C225_others without condition. Counterexamples: further users and the flooding domain keep the pointer to a removed algorithm; an algorithm registered later is never used; the same wildcard again deactivates and activates the algorithm."
  },
  {
   "property": "C226",
   "status": "partial",
   "theorems": [
    "Verif.DomReg.C226_sets",
    "Verif.DomReg.C226_listeners",
    "Verif.DomReg.C226_marked",
    "Verif.DomReg.C226_idle",
    "Verif.DomReg.C226_twice_counterexample"
   ],
   "note": "C226_sets (for algorithms that give the same answer twice), C226_listeners, C226_marked, C226_idle. Counterexample for other algorithms (they are asked twice)."
  },
  {
   "property": "C227",
   "status": "partial",
   "theorems": [
    "Verif.OsTun.C227_speeds",
    "Verif.OsTun.C227_reset_counterexample",
    "Verif.OsTun.C227_stale_counterexample"
   ],
   "note": "Proved for databases whose entries have metadata; counterexamples: abort after another source withdrew a default rate, stale value when the speed becomes unknown."
  },
  {
   "property": "C228",
   "status": "partial",
   "theorems": [
    "Verif.OsTun.C228_history_partial",
    "Verif.OsTun.C228_cleanup_partial",
    "Verif.OsTun.C228_refused",
    "Verif.OsTun.C228_round_trip",
    "Verif.OsTun.C228_frame",
    "Verif.OsTun.C228_device_up_partial",
    "Verif.OsTun.C228_case_counterexample",
    "Verif.OsTun.C228_steal_counterexample",
    "Verif.OsTun.C228_device_counterexample",
    "Verif.OsTun.C228_device_partial",
    "Verif.OsTun.C228_down_counterexample"
   ],
   "note": "Proved for objects whose names differ without regard to case and whose parameters differ, with tunnels of others not in the way; refusal, frame and round trip for every state. Counterexamples: names equal up to case, deletion of other tunnels on EEXIST, wrong device for IPv6 and GRE over IPv4, base device not brought up again."
  },
  {
   "property": "C229",
   "status": "partial",
   "theorems": [
    "Verif.OsTun.C229_vif_partial",
    "Verif.OsTun.C229_close_counterexample",
    "Verif.OsTun.C229_reopen_counterexample"
   ],
   "note": "Proved when the caller stores the socket in the object; counterexamples: NULL dereference otherwise, second open damages the tree."
  },
  {
   "property": "C230",
   "status": "partial",
   "theorems": [
    "Verif.RtSched.C230_exact",
    "Verif.RtSched.C230_deadline_partial",
    "Verif.RtSched.C230_rate_partial",
    "Verif.RtSched.C230_rate_counterexample",
    "Verif.RtSched.C230_parameter_counterexample",
    "Verif.RtSched.C230_starve_counterexample"
   ],
   "note": "Exactness outright; deadline and minimum distance proved for all histories without changes of domain parameters, which restart the timer; the last sentence is refuted: the domain is not marked as changed, its routes stay removed"
  },
  {
   "property": "C231",
   "status": "partial",
   "theorems": [
    "Verif.RtSched.C231_settled_partial",
    "Verif.RtSched.C231_pending_counterexample",
    "Verif.RtSched.C231_frozen_counterexample"
   ],
   "note": "Proved between moments without a pending recalculation; refuted for TCs sent between a change and the recalculation, and while routes are frozen"
  },
  {
   "property": "C232",
   "status": "partial",
   "theorems": [
    "Verif.CfgIo.C232_scheme_partial",
    "Verif.CfgIo.C232_default",
    "Verif.CfgIo.C232_empty",
    "Verif.CfgIo.C232_prefix_counterexample",
    "Verif.CfgIo.C232_nohandler_counterexample",
    "Verif.CfgIo.C232_order_counterexample"
   ],
   "note": "Proved for all search trees when no registered name is a longer word that begins with the scheme; refuted otherwise: the comparator shortens names. Without handler and default the list head is used as a handler"
  },
  {
   "property": "C233",
   "status": "partial",
   "theorems": [
    "Verif.CfgIo.C233_monotonic",
    "Verif.CfgIo.C233_since",
    "Verif.CfgIo.C233_steps_partial",
    "Verif.CfgIo.C233_steady_partial",
    "Verif.CfgIo.C233_backwards_counterexample",
    "Verif.CfgIo.C233_huge_counterexample"
   ],
   "note": "Proved for the monotonic source; without it steps are between -1 and +61 seconds whatever the system clock does, and readings are exact while it is steady; refuted for steps back inside a second"
  },
  {
   "property": "C234",
   "status": "partial",
   "theorems": [
    "Verif.IsoNum.C234_unsigned",
    "Verif.IsoNum.C234_signed",
    "Verif.IsoNum.C234_minus",
    "Verif.IsoNum.C234_plus",
    "Verif.IsoNum.C234_prefix_counterexample"
   ],
   "note": "Proved for raw texts without scaling and all numbers, the smallest signed one included; the sign rule holds for all scalings and styles; refuted for texts with a prefix, whose digits are cut off"
  },
  {
   "property": "C235",
   "status": "partial",
   "theorems": [
    "Verif.KernVer.C235_three",
    "Verif.KernVer.C235_two_partial",
    "Verif.KernVer.C235_two_counterexample",
    "Verif.KernVer.C235_unknown",
    "Verif.KernVer.C235_monotone",
    "Verif.KernVer.C235_source_specific"
   ],
   "note": "The decision is proved equivalent to the lexicographic comparison for releases of three numbers with any suffix. For two numbers the theorem excludes the required version a.b.0, which is denied (counterexample). Releases with signs or spaces are modelled, but nothing is claimed about them."
  },
  {
   "property": "C236",
   "status": "partial",
   "theorems": [
    "Verif.Packet.Out.C236_zero",
    "Verif.Packet.Out.C236_one",
    "Verif.Packet.Out.C236_minus",
    "Verif.Packet.Out.C236_results",
    "Verif.Packet.Out.C236_refused",
    "Verif.Packet.Out.C236_multicast",
    "Verif.Packet.Out.C236_off_counterexample",
    "Verif.Packet.Out.C236_blocked",
    "Verif.Packet.Out.C236_rfc5444_partial",
    "Verif.Packet.Out.C236_group_counterexample"
   ],
   "note": "All results are characterised exactly for destinations with an address family. The contents of the queue are C168, applying the configuration is C170 and here an arbitrary function. Missing: result 0 for an unspecified destination (counterexample), and group addresses that are not the one of the interface (counterexample)."
  },
  {
   "property": "C237",
   "status": "partial",
   "theorems": [
    "Verif.Dlep.Lid.C237_length_partial",
    "Verif.Dlep.Lid.C237_zero_counterexample",
    "Verif.Dlep.Lid.C237_limit",
    "Verif.Dlep.Lid.C237_announced",
    "Verif.Dlep.Lid.C237_key",
    "Verif.Dlep.Lid.C237_injective",
    "Verif.Dlep.Lid.C237_bad",
    "Verif.Dlep.Lid.C237_follow",
    "Verif.Dlep.Lid.C237_unknown",
    "Verif.Dlep.Lid.C237_generated_counterexample"
   ],
   "note": "C237_follow is by induction over the messages, for every configured length. C237_length_partial excludes the length 0, for which the router uses 4 (counterexample; harmless as long as the radio announces no link ids, which C237_follow includes). The encoding of TLVs is C140, the order in which the radio sends messages is the subject of the properties in DlepDest."
  },
  {
   "property": "C238",
   "status": "partial",
   "theorems": [
    "Verif.L2Gen.C238_counter",
    "Verif.L2Gen.C238_idle",
    "Verif.L2Gen.C238_off",
    "Verif.L2Gen.C238_one_partial",
    "Verif.L2Gen.C238_grow_counterexample",
    "Verif.L2Gen.C238_search_counterexample"
   ],
   "note": "Counter, idle and off are proved for all runs. One neighbor is true for the first event after the activation only (C238_one_partial); the counterexamples give the exact number of neighbors for all runs, and a neighbor that is not found for every balancing that keeps the order. The values of interface and neighbor are not modelled."
  },
  {
   "property": "C239",
   "status": "partial",
   "theorems": [
    "Verif.TcGen.C239_sends",
    "Verif.TcGen.C239_trailing",
    "Verif.TcGen.C239_off_partial",
    "Verif.TcGen.C239_off_counterexample",
    "Verif.TcGen.C239_shutdown",
    "Verif.TcGen.C239_set",
    "Verif.TcGen.C239_restart",
    "Verif.TcGen.C239_period_partial",
    "Verif.TcGen.C239_period_counterexample",
    "Verif.TcGen.C239_override",
    "Verif.TcGen.C239_failed",
    "Verif.TcGen.C239_on",
    "Verif.TcGen.C239_positive"
   ],
   "note": "C239_off_partial excludes changes of the configuration (C239_off_counterexample), C239_period_partial excludes overrides and configurations that cannot be converted (C239_period_counterexample); the rest is proved in full."
  },
  {
   "property": "C240",
   "status": "proved",
   "theorems": [
    "Verif.Autobuf.Hexdump.C240_injective",
    "Verif.Autobuf.Hexdump.C240_line",
    "Verif.Autobuf.Hexdump.C240_columns",
    "Verif.Autobuf.Hexdump.C240_text"
   ],
   "note": "Proved in full for the text that is appended; what happens when memory runs out is in C14."
  },
  {
   "property": "C241",
   "status": "partial",
   "theorems": [
    "Verif.Viewer.C241_shows",
    "Verif.Viewer.C241_unknown",
    "Verif.Viewer.C241_format_only",
    "Verif.Viewer.C241_result",
    "Verif.Viewer.C241_missing_counterexample",
    "Verif.Viewer.C241_hidden",
    "Verif.Viewer.C241_help_partial",
    "Verif.Viewer.C241_overview",
    "Verif.Viewer.C241_help_counterexample"
   ],
   "note": "Proved in full but for two parts: a missing parameter is reported twice (C241_missing_counterexample); the help wants the exact name of the subcommand (C241_help_partial, C241_help_counterexample)."
  },
  {
   "property": "C242",
   "status": "partial",
   "theorems": [
    "Verif.Netjson.C242_spec_total",
    "Verif.Netjson.C242_collection",
    "Verif.Netjson.C242_filter",
    "Verif.Netjson.C242_nothing",
    "Verif.Netjson.C242_blank_counterexample",
    "Verif.Netjson.C242_ends"
   ],
   "note": "Proved in full for parameters with at least one word and for the empty one; a parameter of blanks is an error (C242_blank_counterexample)."
  }
 ]
}