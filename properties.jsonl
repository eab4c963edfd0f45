{"id": "C01", "title": "Time TLV encoding never shortens an interval and rounds up minimally", "statement": "For every interval t between 1 ms and the largest representable time, encoding t into the one-byte RFC 5497 time format and decoding it again yields a time >= t, and no other time code decodes to a value in between; intervals above the maximum encode to the 'infinite' code 255.", "quantifier": "all 64-bit interval values, all 256 codes", "why_tests_cant": "The input range has more than 3.6 billion meaningful values with carry corner cases at every power of two; a test samples a few.", "anchors": ["src/librfc5444/rfc5444.c:rfc5497_timetlv_encode", "src/librfc5444/rfc5444.c:rfc5497_timetlv_decode"]}
{"id": "C02", "title": "Time TLV codes are ordered and survive re-encoding", "statement": "Decoding is monotone over all codes and strictly monotone wherever the millisecond resolution can tell codes apart (from code 24 on), and decoding and re-encoding a code never changes the time it denotes, so a router that relays a validity time never drifts it.", "quantifier": "all 256 time codes", "why_tests_cant": "Tests spot-check single codes; monotonicity and idempotence relate all pairs of codes.", "anchors": ["src/librfc5444/rfc5444.c:rfc5497_timetlv_encode", "src/librfc5444/rfc5444.c:rfc5497_timetlv_decode"]}
{"id": "C03", "title": "Time TLV hop-count vectors select the right interval", "statement": "Given a multi-value time TLV (RFC 5497: value, hop, value, hop, ..., value) and the hop count of a message, the lookup returns the first value whose hop limit is >= the hop count, or the last value, and never looks past the vector; even-length or empty vectors are handled without reading outside.", "quantifier": "all byte vectors and hop counts", "why_tests_cant": "Vectors have unbounded length; tests use one or two fixed vectors.", "anchors": ["src/librfc5444/rfc5444.c:rfc5497_timetlv_get_from_vector"]}
{"id": "C04", "title": "Link metric encoding never under-reports cost and is minimal", "statement": "For every legal metric the 12-bit compressed representation decodes to a value >= the metric and is the smallest representable such value; 0 and values >= the infinite metric are rejected, values above the maximum saturate; decoding then encoding a 12-bit code is the identity and decoding is strictly monotone.", "quantifier": "all 32-bit metric values and all 4096 codes", "why_tests_cant": "4 billion inputs; rounding carries across exponent boundaries are the dangerous cases and are rarely sampled.", "anchors": ["src/librfc5444/rfc5444.c:rfc7181_metric_encode", "src/librfc5444/rfc5444.c:rfc7181_metric_decode"]}
{"id": "C05", "title": "Sequence number comparison is a consistent circular order", "statement": "For 16-bit sequence numbers: 'larger' is irreflexive and antisymmetric, invariant under adding the same offset to both sides, the signed difference recovers the offset for distances below half the number space, and for any two distinct numbers exactly one of larger/smaller holds in each direction.", "quantifier": "all pairs (and offsets) of 16-bit sequence numbers, including the antipodal distance 2^15", "why_tests_cant": "2^32 pairs; the wrap-around and the half-way point are exactly what sampled tests miss.", "anchors": ["src/librfc5444/rfc5444.c:rfc5444_seqno_difference", "include/oonf/librfc5444/rfc5444.h:rfc5444_seqno_is_larger", "include/oonf/librfc5444/rfc5444.h:rfc5444_seqno_is_smaller"]}
{"id": "C06", "title": "A message sequence number is never accepted twice as new within the duplicate window", "statement": "For any history of duplicate-set lookups for one (originator, type) key, a sequence number reported as new is not reported as new again until either the entry timed out, the window was reset by repeated out-of-window numbers, or the number has left the 32-entry window. The stored window is exactly the set of recently accepted numbers.", "quantifier": "all finite sequences of received sequence numbers, all number widths (8/16/32/64 bit)", "why_tests_cant": "Needs every history, with wrap-around of the sequence number space.", "anchors": ["src/base/oonf_duplicate_set.c:oonf_duplicate_entry_add", "src/base/oonf_duplicate_set.c:_test", "src/base/oonf_duplicate_set.c:_seqno_difference"]}
{"id": "C07", "title": "The duplicate set recovers from a sender restart in bounded time", "statement": "After a sender restarts with an arbitrary older sequence number, at most a fixed number of consecutive out-of-window messages are rejected before the window is re-synchronised to the new numbers.", "quantifier": "all window states and all runs of out-of-window sequence numbers", "why_tests_cant": "Bounded liveness over all histories.", "anchors": ["src/base/oonf_duplicate_set.c:_test"]}
{"id": "C08", "title": "Querying the duplicate set does not change it", "statement": "Testing whether a sequence number was seen (without adding it) has no effect on the answers to later queries.", "quantifier": "all duplicate set states, all query sequences", "why_tests_cant": "A hidden counter makes the effect visible only after particular sequences of queries.", "anchors": ["src/base/oonf_duplicate_set.c:oonf_duplicate_test"]}
{"id": "C09", "title": "256-bit sets behave like mathematical sets", "statement": "Set, reset, test, copy, subset test and bulk operations of the 256-bit bitmap agree with finite sets over 0..255: an update of one position changes no other, and subset is exactly set inclusion.", "quantifier": "all bitmap contents, all positions 0..255", "why_tests_cant": "2^256 states.", "anchors": ["src/libcommon/bitmap256.c", "include/oonf/libcommon/bitmap256.h"]}
{"id": "C10", "title": "Bit streams read back what was written", "statement": "Writing any sequence of values with any bit widths (0..56) into a zeroed buffer and reading with the same widths returns the values truncated to their width; operations past the end fail without touching the stream; a byte copy followed by further reads/writes continues behind the copied bytes.", "quantifier": "all sequences of (value, width) pairs and buffer sizes", "why_tests_cant": "Alignment combinations grow exponentially with the sequence length.", "anchors": ["src/libcommon/bitstream.c:bitstream_w_write", "src/libcommon/bitstream.c:bitstream_r_read", "src/libcommon/bitstream.c:bitstream_w_memcpy"]}
{"id": "C11", "title": "Hexadecimal text conversion is lossless", "statement": "Converting any byte string to hex text and back yields the same bytes; the parser accepts exactly even-length strings of hex digits that fit the buffer and never writes outside it.", "quantifier": "all byte strings, all text inputs, all buffer lengths", "why_tests_cant": "Unbounded input space.", "anchors": ["src/libcommon/string.c:strhex_from_bin", "src/libcommon/string.c:strhex_to_bin", "src/libcommon/string.c:_hexchar_to_value"]}
{"id": "C12", "title": "JSON output is always correctly escaped", "statement": "For every text value (any bytes) the emitted JSON string literal contains no raw quote, backslash or control character and decodes under JSON rules to the original characters; nested start/end calls produce comma-correct output.", "quantifier": "all strings, all well-nested sequences of JSON output calls", "why_tests_cant": "Injection bugs depend on specific byte patterns and nesting histories.", "anchors": ["src/libcommon/json.c:_json_printvalue", "src/libcommon/json.c:json_print", "src/libcommon/json.c:json_start_object"]}
{"id": "C13", "title": "String arrays behave like lists of strings", "statement": "Append, prepend, remove, get and count on a string array behave like the same operations on a list of strings, for every sequence of operations; removing an element leaves all others unchanged and in order.", "quantifier": "all operation sequences and all strings", "why_tests_cant": "Memory layout moves depend on the history and lengths.", "anchors": ["src/libcommon/string.c:strarray_append", "src/libcommon/string.c:strarray_prepend", "src/libcommon/string.c:strarray_remove_ext", "src/libcommon/string.c:strarray_get"]}
{"id": "C14", "title": "Auto-growing buffers never overflow and behave like a byte FIFO", "statement": "After every sequence of append, prepend and pull operations the content equals the abstract byte queue, the length never exceeds the allocated memory, and there is always room for the terminating zero byte that the append functions write.", "quantifier": "all operation sequences and lengths, all page sizes", "why_tests_cant": "Capacity boundaries are hit only by particular length histories.", "anchors": ["src/libcommon/autobuf.c:_autobuf_enlarge", "src/libcommon/autobuf.c:abuf_memcpy", "src/libcommon/autobuf.c:abuf_memcpy_prepend", "src/libcommon/autobuf.c:abuf_pull", "src/libcommon/autobuf.c:abuf_puts"]}
{"id": "C15", "title": "Template expansion substitutes exactly the %key% markers", "statement": "Expanding a template copies all literal text unchanged and replaces every %key% of a known key by its value, for every format string and key table.", "quantifier": "all format strings, key tables and values", "why_tests_cant": "Format strings are arbitrary user input.", "anchors": ["src/libcommon/template.c:abuf_template_init_ext", "src/libcommon/template.c:abuf_add_template"]}
{"id": "C16", "title": "ISO-prefix number parsing is exact or fails", "statement": "Parsing a decimal number with optional fraction and k/M/G/T/P/E prefix returns the exact scaled value or an error on overflow, never a silently wrapped value.", "quantifier": "all digit strings, prefixes and scaling factors", "why_tests_cant": "Overflow needs specific long inputs.", "anchors": ["src/libcommon/isonumber.c:isonumber_to_u64", "src/libcommon/isonumber.c:isonumber_to_s64"]}
{"id": "C17", "title": "Network address comparison is a total order usable as a tree key", "statement": "Comparing network addresses is reflexive, antisymmetric, transitive and total, is zero exactly for equal address, family and prefix length, and gives comparators for dependent keys (with-subnet, strings, integers) that are strict weak orders.", "quantifier": "all triples of addresses", "why_tests_cant": "Transitivity violations corrupt trees only for particular triples.", "anchors": ["src/libcommon/netaddr.c:netaddr_avlcmp", "src/libcommon/avl_comp.c"]}
{"id": "C18", "title": "Subnet membership is exactly prefix agreement", "statement": "An address is reported inside a subnet iff families match and the first prefix-length bits of the subnet agree with the address (the prefix length of the address itself is ignored); the binary variant also requires the right address length.", "quantifier": "all addresses and prefix lengths 0..128", "why_tests_cant": "Bit-level boundary at every prefix length and every byte position.", "anchors": ["src/libcommon/netaddr.c:netaddr_is_in_subnet", "src/libcommon/netaddr.c:_binary_is_in_subnet"]}
{"id": "C19", "title": "Truncating and completing addresses preserves the network part", "statement": "Truncation keeps the first prefix-length bits, zeroes the rest, is idempotent and the result is inside the original subnet; building a host address from a network and a host number keeps the network bits and takes the remaining bits from the number.", "quantifier": "all addresses, prefix lengths and host numbers", "why_tests_cant": "Bit-level boundary at every prefix length.", "anchors": ["src/libcommon/netaddr.c:netaddr_truncate", "src/libcommon/netaddr.c:netaddr_create_host_bin"]}
{"id": "C20", "title": "A netmask converts to the prefix length it denotes", "statement": "Every contiguous netmask of n one bits converts to prefix length n, and non-contiguous masks are rejected.", "quantifier": "all IPv4/IPv6/MAC netmasks", "why_tests_cant": "33+129 legal masks against 2^32+2^128 illegal ones.", "anchors": ["src/libcommon/netaddr.c:_subnetmask_to_prefixlen", "src/libcommon/netaddr.c:netaddr_create_prefix"]}
{"id": "C21", "title": "Printed addresses parse back to the same address", "statement": "Printing a network address (with optional prefix) and parsing the text returns the identical object.", "quantifier": "all addresses of every supported family", "why_tests_cant": "Formatting corner cases (leading zeros, elided parts) over a 2^128 space.", "anchors": ["src/libcommon/netaddr.c:netaddr_to_prefixstring", "src/libcommon/netaddr.c:netaddr_from_string"]}
{"id": "C22", "title": "Access control lists decide by first-match/reject/accept semantics", "statement": "An ACL accepts an address exactly according to its configured order (accept-first or reject-first), lists and default; duplicated or reordered entries inside one list do not matter; copying an ACL preserves all decisions.", "quantifier": "all ACL configurations and addresses", "why_tests_cant": "Combination of two lists, order flag and default for unbounded lists.", "anchors": ["src/libcommon/netaddr_acl.c:netaddr_acl_check_accept", "src/libcommon/netaddr_acl.c:netaddr_acl_from_strarray", "src/libcommon/netaddr_acl.c:_is_in_array"]}
{"id": "C23", "title": "AVL tree operations implement an ordered (multi)map", "statement": "For any sequence of insert and remove operations the tree's iteration order is sorted, contains exactly the inserted and not removed elements, its count is right, equal keys are rejected when duplicates are disallowed and kept adjacent otherwise, and lookup finds an element iff one with that key is present.", "quantifier": "all operation sequences over any totally ordered key type", "why_tests_cant": "Rebalancing paths depend on unbounded histories.", "anchors": ["src/libcommon/avl.c:avl_insert", "src/libcommon/avl.c:avl_remove", "src/libcommon/avl.c:avl_find"]}
{"id": "C24", "title": "AVL trees stay balanced", "statement": "After any sequence of operations every node's balance field equals the height difference of its subtrees and is -1, 0 or 1, so lookup depth is logarithmic in the number of elements.", "quantifier": "all operation sequences", "why_tests_cant": "Invariant over unbounded histories.", "anchors": ["src/libcommon/avl.c:_post_insert", "src/libcommon/avl.c:_avl_post_remove", "src/libcommon/avl.c:_rotate_right", "src/libcommon/avl.c:_rotate_left"]}
{"id": "C25", "title": "AVL range lookup returns the nearest key", "statement": "find_lessequal returns the greatest stored key not above the query (or nothing if all are above), find_greaterequal the smallest key not below it.", "quantifier": "all trees reachable by inserts/removes, all query keys", "why_tests_cant": "Depends on tree shape and duplicates.", "anchors": ["src/libcommon/avl.c:avl_find_lessequal", "src/libcommon/avl.c:avl_find_greaterequal"]}
{"id": "C26", "title": "Timers never fire early and are due within one slice", "statement": "A timer set to a relative interval fires no earlier than its jitter-reduced interval and at a scheduler tick at most one time slice (100 ms) later; jitter never extends the interval and never exceeds its configured percentage.", "quantifier": "all current times, intervals, jitter values and random numbers", "why_tests_cant": "Random jitter and 64-bit rounding.", "anchors": ["src/base/oonf_timer.c:_calc_clock", "src/base/oonf_timer.c:oonf_timer_start_ext"]}
{"id": "C27", "title": "A timer walk fires every due timer exactly once, in due order, and then stops", "statement": "Processing the timer queue at a given time terminates, calls each timer that is due exactly once in order of its due time, and leaves no due timer behind, whatever the callbacks start, stop or restart.", "quantifier": "all timer queues and all callback behaviours (start/stop/restart of any timer)", "why_tests_cant": "Callbacks mutate the queue being walked; unbounded histories.", "anchors": ["src/base/oonf_timer.c:oonf_timer_walk", "src/base/oonf_timer.c:oonf_timer_stop"]}
{"id": "C28", "title": "Periodic timers keep firing, one-shot timers stop, cancelled timers never fire", "statement": "After its callback a periodic timer is scheduled again (unless the callback stopped it), a one-shot timer is inactive (unless the callback restarted it), and a stopped timer does not fire before it is started again.", "quantifier": "all callback behaviours and histories", "why_tests_cant": "Interaction of restart/stop inside callbacks.", "anchors": ["src/base/oonf_timer.c:oonf_timer_walk", "src/base/oonf_timer.c:oonf_timer_stop"]}
{"id": "C29", "title": "Memory class extensions get disjoint storage", "statement": "Each extension registered for a memory class receives an area of at least the requested size inside every object, disjoint from the base object and from all other extensions, and registration is refused once objects exist.", "quantifier": "all sequences of registrations and sizes", "why_tests_cant": "Layout depends on the history of registrations.", "anchors": ["src/base/oonf_class.c:oonf_class_extension_add", "src/base/oonf_class.c:_roundup"]}
{"id": "C30", "title": "Object allocation never hands out a live object and accounting is exact", "statement": "For any sequence of allocate and free calls an object handed out is not in use, usage and free-list counters equal the real numbers, and freed memory is kept only within the configured bounds.", "quantifier": "all allocate/free sequences", "why_tests_cant": "Unbounded histories.", "anchors": ["src/base/oonf_class.c:oonf_class_malloc", "src/base/oonf_class.c:oonf_class_free"]}
{"id": "C31", "title": "Parsing an RFC 5444 packet never leaves the received buffer", "statement": "For every byte string received from the network the packet parser terminates without reading outside the buffer, writing outside its objects or dividing by zero, and returns a success or a parse error code.", "quantifier": "all byte strings and all registered consumers", "why_tests_cant": "Adversarial input space; a single malformed flag combination is enough.", "anchors": ["src/librfc5444/rfc5444_reader.c:rfc5444_reader_handle_packet", "src/librfc5444/rfc5444_reader.c:_parse_tlv", "src/librfc5444/rfc5444_reader.c:_parse_addrblock", "src/librfc5444/rfc5444_reader.c:_handle_message"]}
{"id": "C32", "title": "Messages inside a packet are parsed independently and in order", "statement": "The parser consumes exactly the bytes of each message by its size field; a message dropped by a consumer does not influence how following messages are delimited; parsing of a well-formed packet visits all messages.", "quantifier": "all packets", "why_tests_cant": "Quantifies over all byte strings.", "anchors": ["src/librfc5444/rfc5444_reader.c:rfc5444_reader_handle_packet", "src/librfc5444/rfc5444_reader.c:_handle_message"]}
{"id": "C33", "title": "A message is offered for forwarding only if permitted", "statement": "A message is handed to the forwarding handler only if no consumer dropped it without forwarding permission, it carries a hop limit greater than one, and forwarding was not suppressed.", "quantifier": "all messages and consumer results", "why_tests_cant": "Decision logic with many flags and consumer combinations.", "anchors": ["src/librfc5444/rfc5444_reader.c:_handle_message"]}
{"id": "C34", "title": "Consumer drop decisions have exactly the documented scope", "statement": "If a consumer drops a TLV/address/message/packet, later (lower-priority) consumers no longer see that element, while elements outside its scope are still delivered.", "quantifier": "all consumer priorities and return values", "why_tests_cant": "Combinatorial in consumers and elements.", "anchors": ["src/librfc5444/rfc5444_reader.c:_schedule_tlvblock", "src/librfc5444/rfc5444_reader.c:schedule_msgaddr_consumer", "src/librfc5444/rfc5444_reader.c:schedule_msgtlv_consumer"]}
{"id": "C35", "title": "A written TLV parses back to the same type, extension and value", "statement": "For every TLV type, extended type and value (up to the buffer size) the bytes produced by the TLV writer are parsed by the TLV reader to the same type, extension and value, and the size pre-computation equals the number of bytes written.", "quantifier": "all types, type extensions and value byte strings up to 65535 bytes", "why_tests_cant": "Unbounded value lengths; boundary at 255/256.", "anchors": ["src/librfc5444/rfc5444_tlv_writer.c:_write_tlv", "src/librfc5444/rfc5444_tlv_writer.c:_calc_tlv_size", "src/librfc5444/rfc5444_reader.c:_parse_tlv"]}
{"id": "C36", "title": "Compressed address blocks parse back to the original addresses", "statement": "For every list of addresses with prefix lengths, the head/mid/tail compressed address blocks chosen by the message generator decode in the reader to the same addresses and prefix lengths in the same order.", "quantifier": "all address lists, all compression decisions", "why_tests_cant": "The compression choice is a heuristic over unbounded lists.", "anchors": ["src/librfc5444/rfc5444_msg_generator.c:_compress_address", "src/librfc5444/rfc5444_msg_generator.c:_close_addrblock", "src/librfc5444/rfc5444_msg_generator.c:_write_addresses", "src/librfc5444/rfc5444_reader.c:_parse_addrblock"]}
{"id": "C37", "title": "Packets never exceed the interface's maximum size", "statement": "Messages are added to the current packet only if they fit together with packet header and packet TLVs; otherwise the packet is flushed first; no write ever exceeds the packet buffer.", "quantifier": "all sequences of message sizes, targets and packet TLV reservations", "why_tests_cant": "Depends on histories of queued messages per interface.", "anchors": ["src/librfc5444/rfc5444_pkt_generator.c", "src/librfc5444/rfc5444_msg_generator.c:_finalize_message_fragment", "src/librfc5444/rfc5444_tlv_writer.c"]}
{"id": "C38", "title": "Forwarded messages change only hop count and hop limit", "statement": "A forwarded message is byte-identical to the received one except hop limit reduced by one and hop count increased by one (and header size fields), for every received message with flags in any combination.", "quantifier": "all received messages", "why_tests_cant": "All flag combinations and contents.", "anchors": ["src/librfc5444/rfc5444_msg_generator.c:rfc5444_writer_forward_msg"]}
{"id": "C39", "title": "Message generation terminates and every fragment is complete", "statement": "Creating a message terminates for every address set; each generated fragment fits the maximum message size and contains all mandatory addresses; each non-mandatory address appears in exactly one fragment.", "quantifier": "all address/TLV sets and message size limits", "why_tests_cant": "Termination over all inputs.", "anchors": ["src/librfc5444/rfc5444_msg_generator.c:rfc5444_writer_create_message"]}
{"id": "C40", "title": "Route computation finds minimum-cost paths", "statement": "For every topology the computed path cost of each reachable node equals the minimum over all paths of the sum of link metrics and unreachable nodes get no route.", "quantifier": "all finite directed graphs with positive metrics", "why_tests_cant": "All graphs; tests use a handful of topologies.", "anchors": ["src/olsrv2/olsrv2/olsrv2_routing.c:_run_dijkstra", "src/olsrv2/olsrv2/olsrv2_routing.c:_handle_working_queue", "src/olsrv2/olsrv2/olsrv2_routing.c:_insert_into_working_tree"]}
{"id": "C41", "title": "The next hop of every route starts a shortest path", "statement": "The first hop stored for each destination is a symmetric neighbor that is the first node of some minimum-cost path to it, and hop counts equal the length of that path.", "quantifier": "all finite directed graphs", "why_tests_cant": "All graphs.", "anchors": ["src/olsrv2/olsrv2/olsrv2_routing.c:_insert_into_working_tree", "src/olsrv2/olsrv2/olsrv2_routing.c:_update_routing_entry"]}
{"id": "C42", "title": "The kernel routing table converges to the computed table", "statement": "After a routing run all routes whose parameters changed are scheduled to the kernel, direct-neighbor routes are installed before multi-hop ones and removed after them, and no computed change is lost.", "quantifier": "all old/new routing tables and all interleavings of kernel replies", "why_tests_cant": "Interleavings with asynchronous kernel answers.", "anchors": ["src/olsrv2/olsrv2/olsrv2_routing.c:_process_dijkstra_result", "src/olsrv2/olsrv2/olsrv2_routing.c:_add_route_to_kernel_queue", "src/olsrv2/olsrv2/olsrv2_routing.c:_process_kernel_queue", "src/olsrv2/olsrv2/olsrv2_routing.c:_cb_route_finished"]}
{"id": "C43", "title": "MPR selection covers every two-hop neighbor optimally", "statement": "The selected MPRs are a subset of eligible neighbors and reach every two-hop address with the same minimal cost as the full neighbor set does; selection terminates.", "quantifier": "all neighborhood graphs and metrics", "why_tests_cant": "All finite neighborhood graphs.", "anchors": ["src/nhdp/mpr/selection-rfc7181.c:mpr_calculate_mpr_rfc7181", "src/nhdp/mpr/neighbor-graph.c"]}
{"id": "C44", "title": "Willingness is respected by MPR selection", "statement": "Neighbors with willingness ALWAYS are always selected, neighbors with willingness NEVER are never selected.", "quantifier": "all neighborhood graphs", "why_tests_cant": "All finite neighborhood graphs.", "anchors": ["src/nhdp/mpr/selection-rfc7181.c:_process_will_always", "src/nhdp/mpr/neighbor-graph-flooding.c", "src/nhdp/mpr/neighbor-graph-routing.c"]}
{"id": "C45", "title": "The topology database is always well-formed", "statement": "Every edge has exactly one inverse edge connecting the same two nodes in opposite direction; edges and nodes exist only while some information supports them; removal never leaves dangling references.", "quantifier": "all sequences of topology database operations", "why_tests_cant": "Unbounded histories of received TCs and expiries.", "anchors": ["src/olsrv2/olsrv2/olsrv2_tc.c"]}
{"id": "C46", "title": "Outdated topology information never replaces newer information", "statement": "A TC whose content sequence number is older than the stored one does not change stored topology of its originator.", "quantifier": "all histories of received TC messages", "why_tests_cant": "Histories with wrap-around and reordering.", "anchors": ["src/olsrv2/olsrv2/olsrv2_reader.c:_cb_messagetlvs", "src/olsrv2/olsrv2/olsrv2_reader.c:_cb_messagetlvs_end"]}
{"id": "C47", "title": "Flooding forwards each message at most once and only for MPR selectors", "statement": "A message is forwarded only if it was received from a symmetric neighbor that selected this node as flooding MPR, was not forwarded before, and does not originate at this node.", "quantifier": "all receive histories, neighbor states and duplicate set contents", "why_tests_cant": "Histories and state combinations.", "anchors": ["src/olsrv2/olsrv2/olsrv2.c:olsrv2_mpr_shall_forwarding", "src/olsrv2/olsrv2/olsrv2.c:olsrv2_mpr_shall_process"]}
{"id": "C48", "title": "Own messages are recognised across originator changes", "statement": "After the router changes its originator address, messages carrying the previous originator are still recognised as its own until the hold time passes; the originator only changes to a better address.", "quantifier": "all histories of originator changes and expiries", "why_tests_cant": "Histories.", "anchors": ["src/olsrv2/olsrv2/olsrv2_originator.c", "src/olsrv2/olsrv2/olsrv2.c:_update_originator"]}
{"id": "C49", "title": "Link status follows the RFC 6130 timer rules", "statement": "The status of a link is symmetric exactly when its symmetric timer runs and it is neither pending nor lost through hysteresis or address collisions; heard/lost/pending are derived by the documented precedence.", "quantifier": "all combinations of timers, hysteresis state and collision flags", "why_tests_cant": "Decision table combined with event histories.", "anchors": ["src/nhdp/nhdp/nhdp_db.c:_nhdp_db_link_calculate_status", "src/nhdp/nhdp/nhdp_db.c:nhdp_db_link_update_status"]}
{"id": "C50", "title": "A neighbor's symmetric-link counter equals its number of symmetric links", "statement": "In every reachable state the stored symmetric counter of each neighbor equals the number of its links with symmetric status.", "quantifier": "all sequences of database operations (link add/remove, status update, unsymmetric marking, neighbor join)", "why_tests_cant": "Histories; an off-by-one stays hidden until the counter hits zero.", "anchors": ["src/nhdp/nhdp/nhdp_db.c:nhdp_db_link_update_status", "src/nhdp/nhdp/nhdp_db.c:nhdp_db_link_set_unsymmetric", "src/nhdp/nhdp/nhdp_db.c:nhdp_db_link_remove"]}
{"id": "C51", "title": "Dual-stack partnership is a symmetric one-to-one relation", "statement": "If neighbor (or link) A names B as dual-stack partner then B names A, partners have different address families, and nobody names itself or two partners; removal clears the partner's reference.", "quantifier": "all sequences of connect/disconnect/remove operations", "why_tests_cant": "Pointer relation over unbounded histories.", "anchors": ["src/nhdp/nhdp/nhdp_db.c:nhdp_db_neighbor_connect_dualstack", "src/nhdp/nhdp/nhdp_db.c:nhdp_db_link_connect_dualstack"]}
{"id": "C52", "title": "Processing a HELLO never uses a freed object", "statement": "Whatever addresses a received HELLO lists and whatever the database contains, processing never accesses a link or neighbor that was removed during the same processing.", "quantifier": "all HELLO contents and database states", "why_tests_cant": "Requires specific address conflicts between existing neighbors.", "anchors": ["src/nhdp/nhdp/nhdp_reader.c:_pass2_process_localif", "src/nhdp/nhdp/nhdp_reader.c:_cb_addresstlvs_pass1_end"]}
{"id": "C53", "title": "Attached-network distance summary is correct", "statement": "A locally attached network is reported as having the same distance in all domains exactly if all its configured distances are equal.", "quantifier": "all sequences of add/remove per domain", "why_tests_cant": "Histories over several domains with special values.", "anchors": ["src/olsrv2/olsrv2/olsrv2_lan.c"]}
{"id": "C54", "title": "Route filters can veto any route", "statement": "If any registered filter rejects a computed route it is not sent to the kernel.", "quantifier": "all filter lists and routes", "why_tests_cant": "All filter/route combinations.", "anchors": ["src/olsrv2/olsrv2/olsrv2_routing.c:_process_dijkstra_result"]}
{"id": "C55", "title": "Text is split into words consistently", "statement": "Counting words, copying the next word, skipping a word and testing for a leading keyword all agree with the same division of a text into maximal runs of non-blank characters; the keyword test ignores letter case and matches whole words only; a copied word never exceeds its buffer.", "quantifier": "all texts, keywords and buffer sizes", "why_tests_cant": "Infinitely many texts; the functions must agree with each other on all of them.", "anchors": ["src/libcommon/string.c:str_countwords", "src/libcommon/string.c:str_cpynextword", "src/libcommon/string.c:str_skipnextword", "src/libcommon/string.c:str_hasnextword"]}
{"id": "C56", "title": "Bounded string copy and append always terminate and never overflow", "statement": "Copying or appending a string with a size limit writes only inside the given size, always leaves a terminated string, and the result is the (old text followed by the) source cut to the available space.", "quantifier": "all source and target strings and sizes", "why_tests_cant": "Boundary behaviour for every length combination.", "anchors": ["src/libcommon/string.c:strscpy", "src/libcommon/string.c:strscat"]}
{"id": "C57", "title": "Printed numbers are exact to three decimals with the right prefix", "statement": "Printing a number with a scaling factor yields the quotient cut off after three decimals without trailing zeros; the ISO prefix is the one that leaves one to three digits before the point (or the smallest available one for tiny values).", "quantifier": "all 64 bit numbers and scaling factors (below a tenth of 2^64)", "why_tests_cant": "The digits, the prefix and the suppressed zeros interact; only a few numbers are tried by tests.", "anchors": ["src/libcommon/isonumber.c:_isonumber_u64_to_string", "src/libcommon/isonumber.c:isonumber_from_u64"]}
{"id": "C58", "title": "Addresses convert to binary and socket form and back", "statement": "Writing an address in binary or socket form and reading it back returns the same address (and port); comparisons with binary and socket forms agree with equality of the converted addresses; embedding an IPv4 address in IPv6 and extracting it is the identity.", "quantifier": "all addresses of every supported family, ports and interface scopes", "why_tests_cant": "2^128 addresses; tests only cover a handful.", "anchors": ["src/libcommon/netaddr.c:netaddr_from_binary_prefix", "src/libcommon/netaddr.c:netaddr_to_binary", "src/libcommon/netaddr.c:netaddr_from_socket", "src/libcommon/netaddr.c:netaddr_socket_init", "src/libcommon/netaddr.c:netaddr_cmp_to_socket"]}
{"id": "C59", "title": "Timer bookkeeping matches the set of running timers", "statement": "At every moment the usage counter of a timer class equals the number of its running timers, and the next wakeup time reported to the main loop is the earliest due time of all running timers (infinite when none runs).", "quantifier": "all histories of starts, stops, walks and callback behaviours", "why_tests_cant": "A leak or lost decrement only shows after long histories.", "anchors": ["src/base/oonf_timer.c:oonf_timer_start_ext", "src/base/oonf_timer.c:oonf_timer_stop", "src/base/oonf_timer.c:oonf_timer_getNextEvent"]}
{"id": "C60", "title": "Every address keeps exactly its own address TLVs", "statement": "The address TLVs of a message fragment (grouped into TLVs for one index, a range of indices or a whole block, with a shared value or one value per address) are attributed by the reader to exactly the addresses they were added to, with the same type, extension and value; no address gains, loses or exchanges a TLV.", "quantifier": "all lists of addresses with any TLVs, all groupings chosen by the generator", "why_tests_cant": "The grouping depends on the neighbours of an address in the list and on the compression; tests cover a few layouts.", "anchors": ["src/librfc5444/rfc5444_msg_generator.c:_write_addresstlvs", "src/librfc5444/rfc5444_msg_generator.c:_write_addresstlv", "src/librfc5444/rfc5444_msg_generator.c:_compress_address", "src/librfc5444/rfc5444_reader.c:_parse_tlv"]}
{"id": "C61", "title": "A generated message is read back completely", "statement": "A message written by the generator (header fields, message TLVs, address blocks with their TLVs) is parsed by the reader, whatever follows it in the packet, to the same header fields, the same message TLVs, and the same addresses with their TLVs in the same order.", "quantifier": "all header field combinations, message TLV lists, address lists and following bytes", "why_tests_cant": "The space of messages is unbounded; interactions of header flags, TLV block and address compression.", "anchors": ["src/librfc5444/rfc5444_msg_generator.c:_write_msgheader", "src/librfc5444/rfc5444_msg_generator.c:_finalize_message_fragment", "src/librfc5444/rfc5444_reader.c:_handle_message"]}
{"id": "C62", "title": "A TC message determines the stored topology of its originator", "statement": "After an accepted complete TC with a new content sequence number, the neighbors (with metrics) and prefixes stored for the originator are exactly those listed in the message.", "quantifier": "all reachable databases and all TC messages", "why_tests_cant": "The resulting set depends on arbitrary earlier content and message structure.", "anchors": ["src/olsrv2/olsrv2/olsrv2_reader.c:_cb_addresstlvs", "src/olsrv2/olsrv2/olsrv2_reader.c:_cb_messagetlvs_end"]}
{"id": "C63", "title": "What a router announces in a TC is what other routers learn", "statement": "For every neighbor a router announces, every router that processes the TC learns the neighbor and, in every domain both know, the announced metric rounded up to the next representable value; for every announced attached network it learns the prefixes, metric and distance.", "quantifier": "all sets of neighbors, metrics, domains, attached networks and orders of TLVs", "why_tests_cant": "Sender and receiver states combine with all TLV orders and domain configurations.", "anchors": ["src/olsrv2/olsrv2/olsrv2_writer.c:_cb_addAddresses", "src/olsrv2/olsrv2/olsrv2_writer.c:_generate_neighbor_metric_tlvs", "src/olsrv2/olsrv2/olsrv2_reader.c:_cb_addresstlvs", "src/olsrv2/olsrv2/olsrv2_reader.c:_handle_gateways"]}
{"id": "C64", "title": "MPR flags and willingness arrive as sent", "statement": "The MPR TLV and the willingness TLV a router puts into its HELLOs are read by the neighbor as the same flooding MPR flag, the same routing MPR flag per domain, the same flooding willingness and the same routing willingness per domain; a domain the sender does not have gets no flag and willingness NEVER.", "quantifier": "all lists of up to four domains at sender and receiver, all flags and willingness values, any state of the receiver", "why_tests_cant": "The packing of flags and half bytes depends on index, position and number of domains of both routers; tests use one domain on both sides.", "anchors": ["src/nhdp/nhdp/nhdp_domain.c:600-820", "src/nhdp/nhdp/nhdp_domain.c:828-866", "src/nhdp/nhdp/nhdp_writer.c:250-272", "src/nhdp/nhdp/nhdp_writer.c:349-395"]}
{"id": "C65", "title": "Neighbor metric is the best symmetric link", "statement": "After a recalculation the incoming and outgoing metric of a neighbor are the minimum over its symmetric links (infinite without one), the best link is a symmetric link of that neighbor with that outgoing metric, and the result tells whether metrics have changed since the last recalculation.", "quantifier": "all neighbors with any number of links in any state with any metrics and two-hop neighbors, all previous results", "why_tests_cant": "The result depends on a history of link states and metrics; missed change reports only show up as stale routes much later.", "anchors": ["src/nhdp/nhdp/nhdp_domain.c:1005-1076"]}
{"id": "C66", "title": "A router knows whether it is an MPR", "statement": "nhdp_domain_node_is_mpr is true iff there is a neighbor whose latest HELLO selected this router as routing MPR in a domain.", "quantifier": "all sequences of HELLOs with and without MPR TLV, of any neighbors, of new and of removed neighbors", "why_tests_cant": "The answer is a cached summary over all neighbors which has to follow every change of every neighbor; stale values need particular sequences of events.", "anchors": ["src/nhdp/nhdp/nhdp_domain.c:631-682", "src/nhdp/nhdp/nhdp_db.c:242-285"]}
{"id": "C67", "title": "Arbitration between layer-2 data sources", "statement": "After any sequence of oonf_layer2_data_set calls a value is the last one written by the winning originator: the originator that wrote last with a priority at least as high as every priority in force before; the return value tells whether the value changed.", "quantifier": "all sequences of writes by any originators with any priorities", "why_tests_cant": "The outcome depends on the interleaving of writers with different priorities.", "anchors": ["src/base/oonf_layer2.c:342-359", "include/oonf/base/oonf_layer2.h:940-956"]}
{"id": "C68", "title": "Scaled layer-2 numbers keep their value", "statement": "Storing a number given in units of 1/a and reading it in units of 1/b yields the number converted to the unit, rounded towards zero; a number stored and read in the same scale is unchanged if the object's scale is finer.", "quantifier": "all 64-bit signed numbers, all pairs of scales that divide each other, as long as the result fits", "why_tests_cant": "Signed/unsigned conversions only misbehave for particular sign and scale combinations.", "anchors": ["src/base/oonf_layer2.c:369-390", "include/oonf/base/oonf_layer2.h:852-875"]}
{"id": "C69", "title": "Removing a layer-2 originator removes exactly its data", "statement": "After oonf_layer2_origin_remove no fact (metric, default, address, destination) of the originator is left, all facts of other originators are unchanged, objects without information are gone and no object appears.", "quantifier": "all databases reachable by any operations, all originators", "why_tests_cant": "Needs several originators that share objects in every combination.", "anchors": ["src/base/oonf_layer2.c:262-275", "src/base/oonf_layer2.c:547-605", "src/base/oonf_layer2.c:889-915"]}
{"id": "C70", "title": "Relabelling moves layer-2 data", "statement": "oonf_layer2_net_relabel moves exactly the facts of the old originator to the new one, without changing values, facts of others or the set of objects.", "quantifier": "all interfaces with any data, all pairs of originators", "why_tests_cant": "All kinds of data in all objects have to be covered at once.", "anchors": ["src/base/oonf_layer2.c:646-675", "src/base/oonf_layer2.c:957-982"]}
{"id": "C71", "title": "Only empty layer-2 objects are removed by a commit", "statement": "A neighbor (interface) survives its commit iff there is a fact about it (or a neighbor of it); a commit changes no fact and no other object.", "quantifier": "all reachable databases, all neighbors and interfaces", "why_tests_cant": "A forgotten kind of data makes the object vanish only if it is the last one.", "anchors": ["src/base/oonf_layer2.c:612-637", "src/base/oonf_layer2.c:929-948"]}
{"id": "C72", "title": "Layer-2 address indexes are consistent", "statement": "After any sequence of operations no interface, neighbor or address exists twice, and the address indexes contain exactly the addresses of existing neighbors and radios, so a lookup finds an address iff some neighbor has it.", "quantifier": "all sequences of all database operations", "why_tests_cant": "Index and objects are updated in different functions; stale entries are dangling pointers.", "anchors": ["src/base/oonf_layer2.c:683-760", "src/base/oonf_layer2.c:1026-1080", "src/base/oonf_layer2.c:1491-1550"]}
{"id": "C73", "title": "Layer-2 query with defaults", "statement": "oonf_layer2_neigh_query returns the value known for the neighbor, otherwise - if asked for - the default of the interface, otherwise nothing.", "quantifier": "all reachable databases, all interfaces, neighbors and metrics", "why_tests_cant": "All combinations of present and missing objects, values and defaults.", "anchors": ["src/base/oonf_layer2.c:1142-1172"]}
{"id": "C74", "title": "Best matching neighbor address", "statement": "oonf_layer2_net_get_best_neighbor_match returns the neighbor address or prefix that contains the address and is most specific, and nothing iff none contains it.", "quantifier": "all databases, all addresses", "why_tests_cant": "The result depends on all prefixes in the database and their order.", "anchors": ["src/base/oonf_layer2.c:741-762"]}
{"id": "C75", "title": "Generated link ids are unique", "statement": "oonf_layer2_neigh_generate_lid refuses originators without link ids and addresses that are not MAC addresses; all generated keys are different from each other and from the key without link id.", "quantifier": "all sequences of requests of any originators for any addresses", "why_tests_cant": "A collision needs a particular, long sequence of requests.", "anchors": ["src/base/oonf_layer2.c:772-814", "src/base/oonf_layer2.c:247-255"]}
{"id": "C76", "title": "Text form of layer-2 neighbor keys", "statement": "Parsing the text of a neighbor key yields the key; every accepted text yields a MAC address and at most 16 bytes of link id; the parser never writes outside of its buffers.", "quantifier": "all keys, all texts", "why_tests_cant": "Arbitrary texts, in particular at the limits of the buffers.", "anchors": ["src/base/oonf_layer2.c:1403-1437", "src/base/oonf_layer2.c:1446-1484"]}
{"id": "C77", "title": "Comparators of layer-2 values", "statement": "The six comparators implement the mathematical relations on integers and booleans, are pairwise complementary for values of the same type, false for different types, and are selected by exactly their own text.", "quantifier": "all values and comparators", "why_tests_cant": "The full table of types and relations.", "anchors": ["src/base/oonf_layer2.c:400-470"]}
{"id": "C78", "title": "Layer-2 interfaces are found under their name", "statement": "After oonf_layer2_net_add(name) a lookup of the name finds the object, a second add returns the same object, and other interfaces stay.", "quantifier": "all databases and names", "why_tests_cant": "Needs names at the limit of the stored name.", "anchors": ["src/base/oonf_layer2.c:490-538"]}
{"id": "C79", "title": "Layer-2 address operations change exactly one fact", "statement": "Adding or removing a neighbor address, a destination or a radio address, and removing the data of an originator from a neighbor, change exactly the named fact(s); addresses move to the new originator, removal needs the owner, destinations keep their originator.", "quantifier": "all reachable databases, all addresses and originators", "why_tests_cant": "All combinations of existing owners, shared addresses and other objects.", "anchors": ["src/base/oonf_layer2.c:683-732", "src/base/oonf_layer2.c:889-920", "src/base/oonf_layer2.c:1026-1131"]}
{"id": "C80", "title": "Link hysteresis follows the exponentially aged quality and its two thresholds", "statement": "From the creation of a link on, for every sequence of received and lost HELLOs and any valid configurations set in between, the quality is the exponentially aged average (rounded up) and stays between 0 and 1. The link is usable exactly if its quality exceeded the threshold for acceptance at some event and has not been below the threshold for rejection since; it is pending exactly if it was never accepted, lost exactly if accepted once and not usable. The status of the link is recalculated exactly when the usability changes.", "quantifier": "for all sequences of HELLO receptions and losses with any valid configuration at each event", "why_tests_cant": "The statement is about unbounded histories with configuration changes in between.", "anchors": ["src/nhdp/hysteresis_olsrv1/hysteresis_olsrv1.c:220-243", "src/nhdp/hysteresis_olsrv1/hysteresis_olsrv1.c:249-259", "src/nhdp/hysteresis_olsrv1/hysteresis_olsrv1.c:402-420"]}
{"id": "C81", "title": "Steady reception makes a link usable, steady loss makes it lost", "statement": "With every valid configuration a link whose HELLOs all arrive becomes usable after finitely many of them, and a link whose HELLOs are all lost stops being usable after finitely many. The first loss is counted one and a half HELLO intervals after a HELLO, each further one an interval later. (False for the threshold 1.0 for acceptance, and for losses if threshold times scaling is too small because of the rounding.)", "quantifier": "for all valid configurations, link states and numbers of events", "why_tests_cant": "The failing configurations are corners of a three dimensional space; the default values work.", "anchors": ["src/nhdp/hysteresis_olsrv1/hysteresis_olsrv1.c:120-126", "src/nhdp/hysteresis_olsrv1/hysteresis_olsrv1.c:220-243", "src/nhdp/hysteresis_olsrv1/hysteresis_olsrv1.c:279-296", "src/nhdp/hysteresis_olsrv1/hysteresis_olsrv1.c:347-358"]}
{"id": "C82", "title": "Packet counters of the DAT metric cover exactly the last 32 sampling intervals", "statement": "After every sequence of packets, HELLO losses, link changes and samples the received and total counters of a link are those of an unbounded history restricted to the last 32 sampling intervals (an interval before the first packet counts as one lost packet), with the total being the advance of the 16 bit sequence number including wraparound. Before the first packet no metric is set.", "quantifier": "for all sequences of events with 16 bit sequence numbers", "why_tests_cant": "Refinement of a ring buffer to an unbounded history, over unbounded executions with wraparound of sequence numbers and positions.", "anchors": ["src/nhdp/ff_dat_metric/ff_dat_metric.c:458-489", "src/nhdp/ff_dat_metric/ff_dat_metric.c:934-942", "src/nhdp/ff_dat_metric/ff_dat_metric.c:979-985", "src/nhdp/ff_dat_metric/ff_dat_metric.c:1145-1166"]}
{"id": "C83", "title": "A link never has more received than transmitted packets", "statement": "The number of received packets of the DAT metric never exceeds the total of its window. (False with repeated packets: a copy counts as received, but does not advance the sequence number.)", "quantifier": "for all sequences of events", "why_tests_cant": "Needs a sender or network that repeats packets.", "anchors": ["src/nhdp/ff_dat_metric/ff_dat_metric.c:1155-1163"]}
{"id": "C84", "title": "Missed HELLOs reduce the number of received packets proportionally", "statement": "Each HELLO interval missed since the last packet, measured in sampling intervals, removes 1/32 of the received packets; the result does not grow with further misses, never exceeds the number of received packets and is 0 once the misses cover the window. Every packet resets the count.", "quantifier": "for all counters and intervals within 32 bit", "why_tests_cant": "Arithmetic over large ranges with truncation at several points.", "anchors": ["src/nhdp/ff_dat_metric/ff_dat_metric.c:944-952", "src/nhdp/ff_dat_metric/ff_dat_metric.c:1038-1051", "src/nhdp/ff_dat_metric/ff_dat_metric.c:1176-1181"]}
{"id": "C85", "title": "Link speed of the DAT metric is the median of the known samples", "statement": "The speed of a link is the upper median of the positive samples of the window and unknown exactly if there is none; it is scaled to units of 1024 bit/s between 1 and 2^21, rounded up. (False for samples of 2^31 bit/s or more, which are copied into an array of int.)", "quantifier": "for all windows of samples", "why_tests_cant": "Faster links are rare in tests; the median is taken over arbitrary samples.", "anchors": ["src/nhdp/ff_dat_metric/ff_dat_metric.c:562-601", "src/nhdp/ff_dat_metric/ff_dat_metric.c:646-670"]}
{"id": "C86", "title": "Cost of packet loss lies between 1 and 8, follows the loss and is stable", "statement": "The cost factor of the loss is between 1 and 8, within 0.1 of the inverse of the share of received packets (8 for a share of 1/8 or less), does not grow if more of the packets are received, and stays the same if nothing changes. (Range and monotonicity hold for the linear exponent without layer-2 data and are false for the others.)", "quantifier": "for all counters and remembered values", "why_tests_cant": "Monotonicity fails only at particular neighbouring counter values.", "anchors": ["src/nhdp/ff_dat_metric/ff_dat_metric.c:704-805"]}
{"id": "C87", "title": "The loss exponent is the configured power", "statement": "The share of received packets is raised to the power 1, 2 or 3 for the linear, quadratic and cubic setting. (False for the cubic one, which yields the fourth power; in general the loop with n rounds computes the power 2^n.)", "quantifier": "for all shares and exponents", "why_tests_cant": "The value is not observable directly, only through divisions and a hysteresis.", "anchors": ["src/nhdp/ff_dat_metric/ff_dat_metric.c:762-784"]}
{"id": "C88", "title": "The DAT metric is always legal and its calculation is always defined", "statement": "Every metric the plugin sets lies between 1 and the maximum of RFC 7181 and is transmitted unchanged by a TLV; no sequence of packets and no moderate layer-2 data leads to an overflow or a division by zero. (The second part holds for the linear and dynamic exponent; with the cubic exponent copies of a packet lead to an overflow.)", "quantifier": "for all executions, configurations and layer-2 data", "why_tests_cant": "Overflow needs thousands of copies of one packet after a quiet period.", "anchors": ["src/nhdp/ff_dat_metric/ff_dat_metric.c:876-902", "src/nhdp/ff_dat_metric/ff_dat_metric.c:908-988"]}
{"id": "C89", "title": "The options for airtime, neighborhood and dynamic exponent have the documented effect", "statement": "With ffdat_airtime off the link speed does not influence the metric, with ffdat_mic on the metric is multiplied by the size of the neighborhood, and the dynamic exponent depends on that size. (False: in every execution of a new link the metrics are the same for all values of these options.)", "quantifier": "for all executions", "why_tests_cant": "The claim quantifies over all executions and pairs of configurations.", "anchors": ["src/nhdp/ff_dat_metric/ff_dat_metric.c:225-234", "src/nhdp/ff_dat_metric/ff_dat_metric.c:865-874", "src/nhdp/ff_dat_metric/ff_dat_metric.c:1020-1032"]}
{"id": "C90", "title": "Faster and more reliable links never get a higher DAT metric", "statement": "The metric of a link without layer-2 throughput is its airtime, 2^21 divided by the speed in units of 1024 bit/s and multiplied by the loss, rounded up to the next metric that can be transmitted; a link that is at least as fast and loses at most as much has no higher metric. (False for links of 2^31 bit/s and more.)", "quantifier": "for all samples of speed and costs of loss", "why_tests_cant": "Rounding at several stages; monotonicity over all pairs of links.", "anchors": ["src/nhdp/ff_dat_metric/ff_dat_metric.c:672-692", "src/nhdp/ff_dat_metric/ff_dat_metric.c:807-863", "src/nhdp/ff_dat_metric/ff_dat_metric.c:876-902"]}
{"id": "C91", "title": "Metrics sent in a HELLO arrive at the right place", "statement": "Whatever link and neighbor metrics (incoming, outgoing) a router announces for an address, the addressed router learns as outgoing link and neighbor metric the incoming ones of the sender, and a third router learns both neighbor metrics as two-hop metrics: rounded up to the next value that can be transmitted, infinite if there is none, independent of the order of the TLVs. At most four TLVs are needed.", "quantifier": "for all metrics and all orders of the TLVs", "why_tests_cant": "The writer merges metrics of equal value into one TLV with several flags; a test sees few of the combinations.", "anchors": ["src/nhdp/nhdp/nhdp_writer.c:427-512", "src/nhdp/nhdp/nhdp_domain.c:440-478"]}
{"id": "C92", "title": "A HELLO tells each neighbor what the sender knows about the link", "statement": "A router named in a HELLO concludes that it is heard exactly if the sender has a heard or symmetric link with that address on the interface and has not lost the address; it concludes that the link is lost exactly if the sender has a lost one; a third router takes the address for a symmetric two-hop neighbor exactly if the sender has a symmetric link to the owner of the address and has not lost it. (False for links lost together with the address: the HELLO says nothing about the link.)", "quantifier": "for all reachable databases, interfaces and addresses", "why_tests_cant": "The conclusion depends on link, neighbor and address state of the sender and on two TLVs the receiver combines.", "anchors": ["src/nhdp/nhdp/nhdp_writer.c:355-386", "src/nhdp/nhdp/nhdp_reader.c:594-604", "src/nhdp/nhdp/nhdp_reader.c:833-876"]}
{"id": "C93", "title": "Links are symmetric no longer than heard and heard no longer than valid", "statement": "In every run the symmetric time of a link does not exceed its heard time, which does not exceed the time it exists; no timer of an existing link is overdue; each HELLO keeps the link for its validity time, as symmetric if it says that we are heard, as not symmetric if it says that we are lost. (False for HELLOs processed before an overdue timer, for validity time codes 0 and 255.)", "quantifier": "for all sequences of HELLOs and clock steps", "why_tests_cant": "Concerns interleavings of three timers with different rounding and all validity times.", "anchors": ["src/nhdp/nhdp/nhdp_reader.c:930-984", "src/nhdp/nhdp/nhdp_db.c:823-857", "src/nhdp/nhdp/nhdp_db.c:1004-1054", "src/base/oonf_socket.c:252-255"]}
{"id": "C94", "title": "A symmetric link means that messages recently got through in both directions", "statement": "In a system of two routers whose HELLOs may be lost, repeated, delayed and reordered, a router regards the link as symmetric only if it received a HELLO of the other one within the validity time and the other one received a HELLO of it within twice the validity time plus the delay; and three HELLOs in alternating directions make the link symmetric on both sides from every state in which it was not.", "quantifier": "for all executions of the system of two routers", "why_tests_cant": "A property of a distributed system under all message orders and losses.", "anchors": ["src/nhdp/nhdp/nhdp_reader.c:594-604", "src/nhdp/nhdp/nhdp_reader.c:930-984", "src/nhdp/nhdp/nhdp_writer.c:355-386", "src/nhdp/nhdp/nhdp_db.c:823-857"]}
{"id": "C95", "title": "Plugins are started after and stopped before their dependencies", "statement": "Whatever plugins are loaded, started and unloaded in whatever order, the init callback of a plugin is called only while all its dependencies run, its cleanup callback only while no running plugin depends on it, and the state kept for the plugins agrees with the calls. (False if the name of a dependency differs from the name of the plugin in upper and lower case.)", "quantifier": "for all sequences of operations and all dependency graphs", "why_tests_cant": "The number of dependency graphs and orders of operations is unbounded; the loader has no test.", "anchors": ["src/libcore/oonf_subsystem.c:380-442", "src/libcore/oonf_subsystem.c:444-501"]}
{"id": "C96", "title": "Starting a plugin succeeds exactly if everything it needs can be started", "statement": "Starting a plugin ends with success, and then everything it needs runs, if all plugins it needs are present, can be started and do not depend on themselves; a circular dependency or failure is reported only if there is one. (False after a failed start: the next one reports a circular dependency.)", "quantifier": "for all dependency graphs, including circular ones, and reachable states", "why_tests_cant": "Circular graphs and retries after failure are not tested.", "anchors": ["src/libcore/oonf_subsystem.c:329-333", "src/libcore/oonf_subsystem.c:380-442"]}
{"id": "C97", "title": "The name of a plugin is found in the name of its library", "statement": "The name of a plugin is the name of the library file without directory, prefix and postfix. (True without directory and postfix; false with a directory; with a postfix the name is cut off or memory is overwritten.)", "quantifier": "for all names of libraries, prefixes and postfixes", "why_tests_cant": "The overflow happens only for names of one particular length.", "anchors": ["src/libcore/oonf_subsystem.c:256-287"]}
{"id": "C98", "title": "At the end of the program every plugin is stopped and removed", "statement": "From every reachable state the cleanup of the plugin loader ends, leaves no plugin in the tree and none running, and keeps the order of dependencies.", "quantifier": "for all reachable states", "why_tests_cant": "Requires all orders of loading and all dependency graphs.", "anchors": ["src/libcore/oonf_subsystem.c:136-145", "src/libcore/oonf_subsystem.c:444-501"]}
{"id": "C99", "title": "Unloading a plugin stops the plugins which depend on it and no others", "statement": "If a plugin is unloaded, it is removed and exactly the running plugins which need it directly or indirectly are stopped. Plugins which do not support cleanup are not stopped before the end of the program. (The second part is false if a plugin they depend on is unloaded.)", "quantifier": "for all reachable states and plugins", "why_tests_cant": "Requires arbitrary dependency graphs.", "anchors": ["src/libcore/oonf_subsystem.c:353-359", "src/libcore/oonf_subsystem.c:444-501"]}
{"id": "C100", "title": "Nothing refers to a library after it is closed", "statement": "The plugin tree and the configuration schema contain no object of a library that was closed. (True for the tree if the name of the plugin is the name of the library; false otherwise, and false for the schema.)", "quantifier": "for all sequences of operations", "why_tests_cant": "Dangling pointers are visible only later and by chance.", "anchors": ["src/libcore/oonf_subsystem.c:294-322", "src/libcore/oonf_subsystem.c:478-501", "src/libcore/oonf_cfg.c:294-309"]}
{"id": "C101", "title": "The telnet commands for plugins do what they say", "statement": "'plugin list' lists the plugins, 'plugin load x' loads x, 'plugin unload x' unloads x. (False for load and unload, which are exchanged: 'plugin load x' unloads x if it is loaded, 'plugin unload x' never unloads.)", "quantifier": "for all plugin trees and parameters", "why_tests_cant": "There is no test of the command; the claim covers all names and states.", "anchors": ["src/generic/plugin_controller/plugin_controller.c:142-200"]}
{"id": "C102", "title": "A configuration database is a map from section type, section name and key to a list of values", "statement": "Adding a section makes exactly this section exist and changes no value. Setting an entry replaces, appends or prepends the value of exactly this entry and creates its section. Removing a section type, a named section, an entry or an element of an entry removes exactly this. Types, names and keys are compared without regard to case. Every sequence of operations keeps the database well formed (no duplicates, no entries without values).", "quantifier": "for all databases, operations and keys", "why_tests_cant": "Frame conditions over all other sections and keys.", "anchors": ["src/libconfig/cfg_db.c:156-210", "src/libconfig/cfg_db.c:238-357", "src/libconfig/cfg_db.c:431-461"]}
{"id": "C103", "title": "Copying a configuration appends the selected part", "statement": "Appending a database to another one adds exactly the sections which match the filter for type and name, and appends the values of matching entries behind the old values. A duplicate of a database has the same sections and values.", "quantifier": "for all databases and filters", "why_tests_cant": "All combinations of filters, existing and new entries.", "anchors": ["src/libconfig/cfg_db.c:108-147"]}
{"id": "C104", "title": "The value of an entry is looked up in the named section, the unnamed section and the schema", "statement": "The lookup of a value gives the values of the entry in the section with this name, if there are none those of the unnamed section of the same type, if there are none the default of the schema. After a set command this lookup gives the new value first.", "quantifier": "for all databases, schemas, names and keys", "why_tests_cant": "All combinations of what is set where.", "anchors": ["src/libconfig/cfg_db.c:367-425"]}
{"id": "C105", "title": "A configuration is accepted exactly if it is valid", "statement": "Validation without cleanup does not change the database and succeeds exactly if all section types and entries are known, names are allowed, all values are accepted by the validators, all section validators accept and no mandatory section or entry is missing. Then every entry of the schema has a value in every named section. (False for mandatory entries of unnamed sections and for further values of entries which are not lists, these are not checked.)", "quantifier": "for all databases and schemas with arbitrary validators", "why_tests_cant": "Quantifies over schemas and validators.", "anchors": ["src/libconfig/cfg_schema.c:191-344", "src/libconfig/cfg_schema.c:981-1037"]}
{"id": "C106", "title": "Cleanup of a configuration removes what is not valid and nothing else", "statement": "Validation with cleanup removes unknown sections, sections with forbidden names, unknown entries and rejected values, keeps the rest, and leaves a database which is accepted afterwards. (False: unknown entries stay, good values behind a bad one are removed, with two validators for an entry freed memory is accessed; proved are the parts which are true.)", "quantifier": "for all databases and schemas with arbitrary validators", "why_tests_cant": "Removal during iteration; memory errors depend on the order of the schema.", "anchors": ["src/libconfig/cfg_schema.c:191-344", "src/libconfig/cfg_schema.c:981-1037"]}
{"id": "C107", "title": "Configuration handlers are called exactly for the sections which changed", "statement": "After a change of the configuration the handler of a schema section is called once for every section that appeared, vanished or for which a used value changed, with the correct state before and after, and not otherwise; at the start once for every section. (True for modes with names and without names; false for the mode with a default section, unless there are named sections before and after.)", "quantifier": "for all pairs of databases and all schemas", "why_tests_cant": "Quantifies over two databases and inherited values.", "anchors": ["src/libconfig/cfg_schema.c:843-862", "src/libconfig/cfg_schema.c:873-965", "src/libconfig/cfg_schema.c:1049-1104"]}
{"id": "C108", "title": "A saved configuration file can be loaded again and gives the same configuration", "statement": "Section lines and entry lines are understood with arbitrary white space around their parts. Loading the text written for a database gives the same sections and entries with the same values. (False for entries with several values: they are in the reverse order; and a key without value makes the parser read over the end of its line or of the buffer.)", "quantifier": "for all databases whose names and values fit into a line", "why_tests_cant": "Round trip over all databases; read errors behind the buffer are not visible.", "anchors": ["src/generic/cfg_compact/cfg_compact.c:269-304", "src/generic/cfg_compact/cfg_compact.c:312-340", "src/generic/cfg_compact/cfg_compact.c:352-470"]}
{"id": "C109", "title": "Command line access to the configuration database", "statement": "A text of the form type[name].key=value (each part optional as far as the syntax allows) is split into exactly these parts. Setting appends the value to the entry, or creates the section; an illegal text changes nothing; removing removes exactly the named entry or section; getting an entry reports exactly its values, so a value that was set is found.", "quantifier": "all texts and databases", "why_tests_cant": "texts are unbounded; a few examples do not show that no other text is accepted or that other sections are untouched", "anchors": ["src/libconfig/cfg_cmd.c:84-130", "src/libconfig/cfg_cmd.c:140-192", "src/libconfig/cfg_cmd.c:202-285", "src/libconfig/cfg_cmd.c:550-587"]}
{"id": "C110", "title": "A validated scalar is stored with its value", "statement": "Every text, choice, boolean and number that passes the validator of its schema entry is converted successfully, and the stored value is the one that was written: the whole text, the position of the chosen word, the truth value, the number in units of the last fractional digit inside the allowed range.", "quantifier": "all texts, lists of choices, ranges, fractions and sizes of the target", "why_tests_cant": "validator and converter are separate code with separate limits; the interesting texts are those exactly at the limits", "anchors": ["src/libconfig/cfg_validate.c:68-196", "src/libconfig/cfg_tobin.c:56-133", "src/libconfig/cfg_tobin.c:231-243", "src/libconfig/cfg_schema.c:463-516", "src/libconfig/cfg_schema.c:682-743"]}
{"id": "C111", "title": "Validated addresses, access control lists and bit fields are stored with their meaning", "statement": "An address that passed the validation is stored and has an allowed family and prefix; a list of validated access control words is converted without error into the list the words mean, with allowed entries only; in a bit field a bit is set exactly if the last value that speaks about it switches it on.", "quantifier": "all texts and lists of texts, all allowed families", "why_tests_cant": "lists and texts are unbounded; the number parser accepts more notations than the documentation names", "anchors": ["src/libconfig/cfg_validate.c:209-311", "src/libconfig/cfg_tobin.c:143-221", "src/libconfig/cfg_tobin.c:253-268", "src/libconfig/cfg_schema.c:527-563"]}
{"id": "C112", "title": "Values made of several words", "statement": "A value is accepted exactly if enough words are there, every word is accepted by the entry of its position and the rest of the text by the entry of the last word. The conversion gives every entry its word, the last entry the rest of the text, and entries without a word their default.", "quantifier": "all texts, lists of entries, numbers of optional words", "why_tests_cant": "number of words and entries are unbounded, the accesses outside the array of entries are not visible in the result", "anchors": ["src/libconfig/cfg_validate.c:324-366", "src/libconfig/cfg_tobin.c:280-328"]}
{"id": "C113", "title": "Messages are lines of printable characters", "statement": "Appending a message to a buffer keeps the old content and appends the text, with every unprintable character replaced by a point, and a line feed; nothing outside the buffer is touched.", "quantifier": "all buffers and texts", "why_tests_cant": "whether memory moves depends on the allocator and on the length of all messages before", "anchors": ["src/libconfig/cfg.c:91-121"]}
{"id": "C114", "title": "Apply, rollback and clear keep the two configuration databases consistent", "statement": "An apply succeeds exactly if the edited database has a schema, its global section can be converted, the plugins can be loaded and it is valid; it puts exactly the accepted part of the edited database into use, makes the edited database and the binary copy the same, and tells each handler about exactly the differences (all sections at the first apply). An apply that fails changes nothing, and rollback gives up all edits so that editing and applying can go on.", "quantifier": "all sequences of edits, applies, rollbacks and clears, all schemas, handlers and plugin sets", "why_tests_cant": "depends on the sequence of operator commands over the lifetime of a daemon and on which plugins are loaded by them", "anchors": ["src/libcore/oonf_cfg.c:113-159", "src/libcore/oonf_cfg.c:339-499", "src/libconfig/cfg_schema.c:376-412", "src/libcore/oonf_main.c:405-435"]}
{"id": "C115", "title": "The two-hop addresses of a link follow the HELLOs of the neighbor", "statement": "An address is a two-hop address of a link exactly if the last HELLO of the neighbor that mentions it says it is symmetric, it was not lost and the link did not stop being symmetric since then, and the validity time of that HELLO is not over; its interface flag, validity time and metrics are those of that HELLO. Only symmetric links have two-hop addresses. (The last sentence is false: links that are only heard collect them too; with validity time 0 they never expire.)", "quantifier": "all sequences of HELLOs, status changes and timer runs, all addresses, all sets of domains with different extensions", "why_tests_cant": "needs histories of HELLOs, losses and timeouts of one neighbor and a reference database to compare with", "anchors": ["src/nhdp/nhdp/nhdp_reader.c:759-876", "src/nhdp/nhdp/nhdp_reader.c:905-927", "src/nhdp/nhdp/nhdp_db.c:825-839", "src/nhdp/nhdp/nhdp_db.c:984-987", "src/nhdp/nhdp/nhdp_db.c:1071-1079"]}
{"id": "C116", "title": "Valid two-hop neighbors are reachable in the routing table", "statement": "The routing calculation uses the two-hop addresses of symmetric neighbors that have not expired. (False: it uses exactly those whose timer is not running, so with validity times in the HELLOs no two-hop address is ever used.)", "quantifier": "all HELLO histories of all links, all topologies and routing tables", "why_tests_cant": "the routes of larger networks come from TC messages, so that the missing two-hop routes are noticed only where a neighbor of a neighbor sends no TC", "anchors": ["include/oonf/nhdp/nhdp/nhdp_db.h:591-594", "src/olsrv2/olsrv2/olsrv2_routing.c:985-1006"]}
{"id": "C117", "title": "Loading and unloading plugins at run time report what happened", "statement": "Loading a plugin succeeds exactly if there is a plugin of that name afterwards; a plugin that was there is left alone, for a new one the library is remembered and its configuration sections are added once. A plugin with a shutdown callback is not unloaded before that callback was called; afterwards it is.", "quantifier": "all states reached by any sequence of loading, starting, stopping and unloading, all library contents", "why_tests_cant": "libraries of another name, plugins that exist already and plugins with shutdown are rarely loaded in a test", "anchors": ["src/libcore/oonf_subsystem.c:294-359", "src/libcore/oonf_cfg.c:294-309"]}
{"id": "C118", "title": "HTTP headers are parsed into exactly their parts", "statement": "For every well-formed request (either line ending, up to 16 header fields, any body) the server finds exactly the method, URI, version and the names and values of the fields that were sent, and does not touch the body; more than 16 fields are refused with 400. A line starting with a carriage return that is not followed by a line feed does not end the header. For every input at all, the parser stays within the received data. (Header names are compared case-sensitively, against RFC 7230: counterexample.)", "quantifier": "all requests, all input bytes", "why_tests_cant": "the parser works in place with five nested loops; tests cover a few browsers", "anchors": ["src/base/oonf_http.c:639-799", "src/base/oonf_http.c:274-285"]}
{"id": "C119", "title": "URI decoding inverts percent-encoding", "statement": "Decoding any percent-encoding of a text gives the text and never needs more space than the encoded form; handlers see the decoded URI without the fragment. (Zero bytes and malformed escapes silently cut the URI: counterexample.)", "quantifier": "all texts, all encodings of them, all fragments, all contents of the buffer before", "why_tests_cant": "encodings mixing plain and escaped bytes are not enumerable", "anchors": ["src/base/oonf_http.c:851-870", "src/base/oonf_http.c:330-363"]}
{"id": "C120", "title": "Query parameters arrive as they were sent", "statement": "A query string with any parameters yields exactly the first eight of them in order, lookup returns the first value of a name; a GET request delivers the parameters of its URI. (Decoding happens before splitting for GET and not at all for POST: counterexamples.)", "quantifier": "all parameter lists, all GET requests", "why_tests_cant": "parameters with separators in encoded form are rarely tested", "anchors": ["src/base/oonf_http.c:816-843", "src/base/oonf_http.c:365-372"]}
{"id": "C121", "title": "The handler of a request is responsible for its URI", "statement": "A handler that is chosen is registered and its site is the URI, a directory above it, or the URI without the last slash; an exact match wins; a directory handler answers for everything below if no other site is registered below it. (Other handlers below hide a directory: counterexamples.)", "quantifier": "all sets of handlers, all URIs", "why_tests_cant": "which handlers hide which depends on the alphabetical order of all registered sites", "anchors": ["src/base/oonf_http.c:504-536"]}
{"id": "C122", "title": "HTTP handlers are only called for permitted clients", "statement": "For any received bytes, a handler's callback is only called if its access control list accepts the client and, if the handler has credentials, one of them was given in the Authorization field. (Static content bypasses both checks: counterexample.)", "quantifier": "all input bytes, all sets of handlers, all access lists", "why_tests_cant": "the absence of a bypass is a statement about all inputs", "anchors": ["src/base/oonf_http.c:383-413", "src/base/oonf_http.c:451-472"]}
{"id": "C123", "title": "The file server stays in its directory", "statement": "The path that is opened for a request lies in the web server directory. (False: for URI '/www#p' the path p is opened without any check, and '/www/..' opens the parent; proved for URIs that start with '/www/' up to the last component.)", "quantifier": "all URIs, all paths p", "why_tests_cant": "needs a URI without the last slash and a fragment, which no browser sends", "anchors": ["src/base/oonf_http.c:930-957", "src/base/oonf_http.c:356-363"]}
{"id": "C124", "title": "POST requests are answered with their complete body", "statement": "A POST request gets the parameters of its body. (Proved for requests arriving as a whole with CRLF; a request whose body arrives later is never answered, because parsing has destroyed the buffer; the length check lets incomplete bodies through: counterexamples.)", "quantifier": "all POST requests, all contents arriving later", "why_tests_cant": "tests on the loopback interface receive header and body in one piece", "anchors": ["src/base/oonf_http.c:300-354"]}
{"id": "C125", "title": "The answer does not depend on the segmentation of the header", "statement": "As long as the end of the header has not arrived, the pieces in which the data arrives do not matter: the answer is that of the joined data.", "quantifier": "all ways to cut all inputs into pieces", "why_tests_cant": "the number of ways to cut a request is exponential", "anchors": ["src/base/oonf_http.c:300-310", "src/base/oonf_stream_socket.c:753-795"]}
{"id": "C126", "title": "HTTP to telnet executes the commands of the URI in order", "statement": "For '/telnet/' followed by commands separated by slashes, the commands are executed in order with their parameters until the first one that fails, and the result tells whether all succeeded. (For '/telnet' without slash, commands come from the memory behind the URI: counterexample.)", "quantifier": "all command lists, all behaviours of the commands", "why_tests_cant": "the commands after a failing one and the behaviour without slash are not observed in tests", "anchors": ["src/base/oonf_http.c:877-921"]}
{"id": "C127", "title": "A message or packet that passes the signature check was signed", "statement": "If a message or packet is not dropped, then for every signature that is mandatory for it one of its ICV TLVs has the algorithms and an accepted key id of the signature and a value which the signature's validation accepts for the content with hop limit and hop count zeroed and the ICV TLVs removed; the default validation accepts exactly the value that signing produces. (Packets without TLV block pass without any signature, and the default validation accepts every value of a wrong length: counterexamples.)", "quantifier": "all messages and packets with TLVs without index fields, all signatures and keys, all ICV TLVs", "why_tests_cant": "that no forged message is accepted is a statement about all messages", "anchors": ["src/crypto/rfc5444_signature/rfc5444_signature.c:226-356", "src/crypto/rfc5444_signature/rfc5444_signature.c:505-700", "src/crypto/rfc7182_provider/rfc7182_provider.c:262-300", "src/librfc5444/rfc5444_reader.c:219-222"]}
{"id": "C128", "title": "What one node signs the other accepts", "statement": "A message or packet signed with an algorithm and key passes the check of a node with the same algorithm and key, also after forwarding changed hop limit and hop count. (With two signatures on the sender, two key ids for the same algorithms on the receiver, or a second ICV TLV that is invalid, it fails: counterexamples.)", "quantifier": "all messages and packets, keys, key ids, hop limits and hop counts", "why_tests_cant": "sender and receiver take the message apart with different code", "anchors": ["src/crypto/rfc5444_signature/rfc5444_signature.c:366-500", "src/crypto/rfc5444_signature/rfc5444_signature.c:226-356", "src/crypto/sharedkey_sig/sharedkey_sig.c:275-291"]}
{"id": "C129", "title": "The signed data determines the content", "statement": "Two messages (packets) with the same signed data agree in everything but hop limit, hop count and ICV TLVs: source address, algorithms, key id, header, TLVs and body cannot be shifted into each other.", "quantifier": "all pairs of messages and packets, key ids and source addresses of the same family", "why_tests_cant": "a statement about pairs of byte strings", "anchors": ["src/crypto/rfc5444_signature/rfc5444_signature.c:290-312", "src/crypto/rfc5444_signature/rfc5444_signature.c:505-700"]}
{"id": "C130", "title": "The signature check is memory safe", "statement": "Checking a received message or packet does not access memory outside the packet and the static buffer, uses no null pointer and ends. (Proved for TLVs without index fields, loaded algorithms and contents that fit together with source address and key id into the buffer; for each of the conditions there is a counterexample, reachable without knowing the key.)", "quantifier": "all messages and packets, all signatures", "why_tests_cant": "the check happens before anything is authenticated, the harmful messages are not produced by any sender", "anchors": ["src/crypto/rfc5444_signature/rfc5444_signature.c:290-312", "src/crypto/rfc5444_signature/rfc5444_signature.c:330-336", "src/crypto/rfc5444_signature/rfc5444_signature.c:505-700"]}
{"id": "C131", "title": "The space reserved for signatures is sufficient", "statement": "A signature enlarges a message or packet by at most the space the writer reserves for it. (False: it reserves only the size of the cryptographic value; the growth is that size, the key id and seven to ten bytes.)", "quantifier": "all messages and packets, all signers", "why_tests_cant": "the missing bytes matter only if a packet is filled to the last byte", "anchors": ["src/crypto/rfc5444_signature/rfc5444_signature.c:440-500", "src/crypto/rfc5444_signature/rfc5444_signature.c:764-777", "src/librfc5444/rfc5444_msg_generator.c:185-200", "src/librfc5444/rfc5444_pkt_generator.c:60-80"]}
{"id": "C132", "title": "A signature is active exactly while its algorithms are loaded", "statement": "At any time the hash and encryption pointers of every signature are the loaded algorithms of its types (null if not loaded), and its postprocessor is registered exactly while both are loaded. (Loading an encryption function notifies the hash listeners, so a signature that waits for it never becomes active and an encryption function can be taken for a hash function: counterexamples; proved for encryption functions that are loaded before the signatures that use their number.)", "quantifier": "all sequences of loading and unloading algorithms and adding and removing signatures", "why_tests_cant": "the order of plugins and configuration is fixed in a test", "anchors": ["src/crypto/rfc7182_provider/rfc7182_provider.c:150-216", "src/crypto/rfc5444_signature/rfc5444_signature.c:184-219", "src/crypto/rfc5444_signature/rfc5444_signature.c:704-777"]}
{"id": "C133", "title": "Replayed packets are not processed", "statement": "Whatever packets of a neighbor the network replays, reorders or loses, a node processes each of them at most once, and the timestamps of the processed packets grow strictly. (Proved for two nodes if the receiver does not forget the sender or the sender's counter is not below the window; counterexamples: forgotten senders with low counters, restarted receivers, responses to queries of a third node.)", "quantifier": "all sequences of sending, delivering, forgetting, all counters, windows", "why_tests_cant": "the attacker chooses the sequence of deliveries", "anchors": ["src/crypto/simple_security/simple_security.c:403-526", "src/crypto/simple_security/simple_security.c:545-617"]}
{"id": "C134", "title": "Packets of an honest neighbor are processed after one round trip", "statement": "A packet of a known neighbor is processed exactly if it answers the pending query or its timestamp is above the last one by less than the window. If it is dropped because of its timestamp, the next packets in both directions carry query and response, timers for sending them are running, and the response is processed. (Counterexamples: the first packet of a neighbor asks nothing, a packet to all between query and response makes the response disappear, near the end of the counter range nothing is accepted.)", "quantifier": "all states of both nodes, all timestamps, windows", "why_tests_cant": "the states after restarts and losses are not enumerated by tests", "anchors": ["src/crypto/simple_security/simple_security.c:449-526", "src/crypto/simple_security/simple_security.c:545-600"]}
{"id": "C135", "title": "No timer of a forgotten neighbor is running", "statement": "When a neighbor node is freed, its trigger timer does not run. (Proved if the trigger delay is shorter than the validity time; the configuration does not demand this: counterexample.)", "quantifier": "all sequences of packets and timer events, all configurations", "why_tests_cant": "freed memory is noticed only if it was reused", "anchors": ["src/crypto/simple_security/simple_security.c:380-388", "src/crypto/simple_security/simple_security.c:512-524"]}
{"id": "C136", "title": "DLEP TLVs are parsed into exactly their values", "statement": "A stream of TLVs is accepted exactly if it is the concatenation of TLVs that are in the session's table with a length within the limits; otherwise the reported error is the one of the first TLV that is wrong. After an accepted stream every type delivers exactly its values in order. No memory outside the stream and the array of values is touched, also when memory runs out, for any number of streams one after the other.", "quantifier": "all byte sequences, all tables, all failures of the allocation, all sequences of streams", "why_tests_cant": "values are linked through indices into a reallocated array that is reused by every message", "anchors": ["src/generic/dlep/dlep_session.c:859-952", "src/generic/dlep/dlep_session.c:667-687", "src/generic/dlep/dlep_session.h:381-435"]}
{"id": "C137", "title": "The reaction to a DLEP stream does not depend on its segmentation", "statement": "The messages of a TCP stream are uniquely determined, and in whatever blocks the bytes arrive, the handlers see the same messages and the same answers are sent. (Proved for messages that leave a free block in the input buffer and up to the output of a block in which the session ends; counterexamples: messages above the buffer limit close the session, the Session Termination for a malformed message is lost if another message follows in the same block.)", "quantifier": "all streams, all ways to cut them, all handlers", "why_tests_cant": "the number of ways to cut a stream is exponential", "anchors": ["src/generic/dlep/dlep_session.c:330-446", "src/base/oonf_stream_socket.c:753-819"]}
{"id": "C138", "title": "DLEP sessions follow the message discipline", "statement": "While a session waits for one message type, any other ends it without calling a handler. A malformed message is answered with Session Termination and from then on only its acknowledgement counts; nothing changes the application any more. Session Termination of the peer is acknowledged; a silent peer loses the session at the second heartbeat timeout. (Counterexamples: after acknowledging, the session goes on; errors of handlers close the connection without Session Termination; the daemon ends established sessions without telling the peer, because the condition is inverted.)", "quantifier": "all sequences of messages, all handlers and parsers", "why_tests_cant": "the orders of messages are unbounded", "anchors": ["src/generic/dlep/dlep_session.c:217-224", "src/generic/dlep/dlep_session.c:285-320", "src/generic/dlep/dlep_session.c:372-446", "src/generic/dlep/ext_base_proto/proto.c:515-608"]}
{"id": "C139", "title": "A written DLEP signal is received as it was written", "statement": "A signal with any TLVs is one message in the stream behind what the buffer held, and a parser that knows the TLVs finds exactly the written values. (A signal above 65535 bytes fails, but its bytes stay in the buffer: the peer reads an empty message and every TLV as a message of its own: counterexample.)", "quantifier": "all signals, TLVs, buffers", "why_tests_cant": "the combination of lengths and buffer contents is unbounded", "anchors": ["src/generic/dlep/dlep_writer.c:67-141"]}
{"id": "C140", "title": "The values of DLEP TLVs survive writing and reading", "statement": "Heartbeat interval, link id and its length, metrics, status, peer type, MAC and IP addresses and prefixes, and connection points arrive as they were written, with a length the tables allow; readers stay inside values of allowed length and never write behind the caller's buffer. (Counterexamples: intervals from 2^32 ms, signed 64-bit numbers, metrics beyond the signed range, peer type texts that exactly fit or are missing, prefix lengths above the address length are accepted.)", "quantifier": "all values, all value bytes, all buffer sizes", "why_tests_cant": "boundary values of every field and buffer size", "anchors": ["src/generic/dlep/dlep_writer.c:148-439", "src/generic/dlep/dlep_reader.c:61-541"]}
{"id": "C141", "title": "A DLEP message is handled by the active extensions or refused", "statement": "A message whose TLVs are allowed and which keeps the rules of all active extensions (mandatory TLVs present, no double TLVs where not allowed) is handled by exactly the callbacks of the active extensions, in order, until one fails. A message which breaks a rule of an active extension is refused. (Counterexamples: effects of extensions before the refusing one remain; unknown message types are ignored instead of ending the session; an extension that does not know the type applies the rules of another type.)", "quantifier": "all extension tables, callbacks, messages", "why_tests_cant": "combinations of extensions, message types and TLVs are unbounded", "anchors": ["src/generic/dlep/dlep_session.c:466-560", "src/generic/dlep/dlep_session.c:750-821"]}
{"id": "C142", "title": "DLEP extensions are negotiated", "statement": "The allowed TLVs become exactly those of the active extensions, one entry per type, and contradicting tables are refused. After the peer's list of extensions the session uses the base extensions and the extensions known to both. The tables of the daemon are consistent. (Counterexamples: a peer that does not name 65520, 65521 and 65522, that is every other implementation, makes the daemon call a null pointer; repeated ids write behind the array; the MTU TLV is not in any table.)", "quantifier": "all extension tables, all lists of ids sent by a peer", "why_tests_cant": "the list of the peer is unbounded", "anchors": ["src/generic/dlep/dlep_session.c:156-168", "src/generic/dlep/dlep_session.c:233-277", "src/generic/dlep/dlep_session.c:695-748"]}
{"id": "C143", "title": "The DLEP router knows the addresses of the radio", "statement": "After each update the router has registered for the radio exactly the prefixes and interface addresses which the radio has; an update registers the new ones, withdraws the ones that are gone and touches nothing else, although the router handles the TLVs type by type. (Counterexamples: an interface address that is also a prefix is withdrawn although the prefix remains; announcing and withdrawing an address of somebody else deletes it.)", "quantifier": "all sequences of situations of the radio, all previous registrations, all IPv4 and IPv6 prefixes", "why_tests_cant": "the histories are unbounded", "anchors": ["src/generic/dlep/ext_base_ip/ip.c:205-520", "src/base/oonf_layer2.c:682-733"]}
{"id": "C144", "title": "DLEP discovery answers the sender and keeps going", "statement": "Datagrams that are not for the interface have no effect. A datagram that is handled is answered to its sender only; the buffer and everything sent start with the DLEP prefix; an idle interface sends one Peer Discovery per address family at every tick. (Counterexamples: one malformed datagram of anybody stops discovery; while a session exists the buffer grows at every tick, and all signals are sent in one datagram later.)", "quantifier": "all datagrams, session handlers, numbers of ticks", "why_tests_cant": "unbounded sequences of datagrams and ticks", "anchors": ["src/generic/dlep/dlep_interface.c:82-130", "src/generic/dlep/dlep_interface.c:183-300", "src/generic/dlep/ext_base_proto/proto_router.c:232-245"]}
{"id": "C145", "title": "Flooding uses a family every symmetric neighbor understands", "statement": "A message flooded on an NHDP interface is sent over IPv4 iff there is a symmetric IPv4-only neighbor, and over IPv6 iff there is a symmetric IPv6-only neighbor or there are dualstack neighbors not reached by IPv4; both families are used only if both kinds of single-family neighbors exist, none without a symmetric link, never unicast targets. Every neighbor with a symmetric link is reached. (Counterexamples: a dualstack neighbor of whose two links only one is symmetric gets no message at all, or only over the other family.)", "quantifier": "all lists of links of an interface with all states, partners and families", "why_tests_cant": "the decision depends on arbitrary combinations of neighbors", "anchors": ["src/nhdp/nhdp/nhdp_interfaces.c:146-199", "src/nhdp/nhdp/nhdp.c:325-363"]}
{"id": "C146", "title": "NHDP interface addresses follow the operating system, lost ones are held", "statement": "After all histories of interface events, settings, timeouts and removals: an address of an interface is active iff the last news of the interface had it as usable address (interface up, its family can be sent or loopback, accepted by the filter); it is held as removed iff it was lost, did not come back, and the hold time in force at the loss is not over; no other address is known. The search over all interfaces finds exactly these addresses, whatever prefix length. The links of an interface end iff it has no usable address.", "quantifier": "all histories of timed events on all interfaces, all addresses and filters", "why_tests_cant": "unbounded interleavings of events and timeouts", "anchors": ["src/nhdp/nhdp/nhdp_interfaces.c:272-346", "src/nhdp/nhdp/nhdp_interfaces.c:408-612"]}
{"id": "C147", "title": "NHDP interfaces live as long as they have users, links never use a freed interface", "statement": "An interface exists iff it was registered more often than removed; a link never uses an interface that was freed. (Counterexample: removing the last user of an interface with links frees it, the links stay, and their next timeout uses the freed memory, even after the interface is registered again.)", "quantifier": "all histories of registrations, removals, HELLOs and link timeouts", "why_tests_cant": "unbounded histories", "anchors": ["src/nhdp/nhdp/nhdp_interfaces.c:206-313", "src/nhdp/nhdp/nhdp_db.c:530-645"]}
{"id": "C148", "title": "RFC5444 protocols, interfaces and targets live as long as they have users", "statement": "An interface or target exists iff it was registered more often than given back, the protocol iff it or one of its interfaces is in use; no call and no interface event uses freed memory. (Proved for users that register a destination only once, give targets back before their interface, and leave with a listener only as last owners. Counterexamples: the target is freed when the first of two users of a destination leaves; giving back a target after its interface uses the freed interface; a listener that leaves while others use the interface is called after it was freed.)", "quantifier": "all histories of registrations, removals, uses and interface events", "why_tests_cant": "unbounded histories of several users", "anchors": ["src/base/oonf_rfc5444.c:434-508", "src/base/oonf_rfc5444.c:558-673", "src/base/oonf_rfc5444.c:813-869", "src/base/oonf_rfc5444.c:1020-1033"]}
{"id": "C149", "title": "RFC5444 packets and messages are numbered consecutively", "statement": "The packets of a target that have numbers are numbered consecutively modulo 65536, whatever aggregation, forwarding and requests for numbers do; packets have numbers while they are requested. Message sequence numbers are consecutive, so that receivers regard each message as the newest. (Counterexamples: a change of the addresses of an interface restarts packet numbers; a new interface changes the message number at random, and the next messages may be ignored as too old by all receivers.)", "quantifier": "all histories of messages, flushes, requests; all states of receivers", "why_tests_cant": "unbounded histories, wrap-around", "anchors": ["src/base/oonf_rfc5444.c:600-604", "src/base/oonf_rfc5444.c:1338-1353", "include/oonf/base/oonf_rfc5444.h:366-421", "src/base/oonf_duplicate_set.c:300-356"]}
{"id": "C150", "title": "Aggregated RFC5444 messages leave once, in order, in time", "statement": "Every message put into the buffer of a target leaves in exactly one packet, in order, at most the aggregation interval later; packets fit into the buffer and are not empty unless forced. (Counterexamples: messages in the buffer are lost when addresses of the interface change; overwriting the aggregation interval has no effect; from the second one on, each forwarded message that is too large makes an empty packet.)", "quantifier": "all histories of created, forwarded and refused messages of all sizes, timeouts and forced flushes", "why_tests_cant": "unbounded histories, boundaries of sizes", "anchors": ["src/base/oonf_rfc5444.c:1197-1211", "src/base/oonf_rfc5444.c:1360-1367", "src/librfc5444/rfc5444_pkt_generator.c:62-199", "src/librfc5444/rfc5444_msg_generator.c:474-523"]}
{"id": "C151", "title": "RFC5444 sockets follow the configuration", "statement": "The socket of an interface and its multicast targets always are the ones of the latest configuration of protocol and interface, without port there is no socket. Changes of the section of an interface never have undefined behaviour. (Counterexamples: a new port of the protocol is not used by existing interfaces; the unicast interface gets multicast targets; removing the section of an interface frees uninitialised pointers; good values after unusable ones use a null pointer.)", "quantifier": "all sequences of configuration changes and interface events", "why_tests_cant": "unbounded sequences of changes", "anchors": ["src/base/oonf_rfc5444.c:519-542", "src/base/oonf_rfc5444.c:681-786", "src/base/oonf_rfc5444.c:1391-1450"]}
{"id": "C152", "title": "TCP services keep their limit on sessions", "statement": "The counter of a socket is the number of open admitted sessions, plus those that failed to initialise, minus refused ones that have gone away; therefore at most the configured number of sessions is open at a time, and clients are refused only if the limit is reached. (Proved while no refused client has gone away, resp. no initialisation has failed; in general the excess is at most the number of clients turned away. Counterexamples: for every limit and number there is a history with that many sessions too many; failed initialisations block the service for ever.)", "quantifier": "all limits, all histories of connections, events, closings, removals", "why_tests_cant": "unbounded histories; the effect needs more clients than the limit", "anchors": ["src/base/oonf_stream_socket.c:605-687", "src/base/oonf_stream_socket.c:454-473"]}
{"id": "C153", "title": "TCP sessions deliver every byte once and end when they should", "statement": "What a session sends is what was written to it, in order, and callbacks see what arrived, in order, never above the input limit and not after the active phase has ended. A session that ends by itself has delivered everything unless a failure or callback cut it short. Pending output is always waited for. The clock ends a session exactly after the configured time without a byte through its buffers. (Counterexamples: a peer that closes after half a request gets the callback called twice and the session stays until the timeout; a session busy sending a file is cut off by the timeout; output of the underrun callback may never be sent.)", "quantifier": "all callbacks, peers, results of system calls, histories", "why_tests_cant": "the interleaving of partial sends, reads and callback results is unbounded", "anchors": ["src/base/oonf_stream_socket.c:693-871", "src/base/oonf_stream_socket.c:146-148", "src/base/oonf_stream_socket.c:313-330"]}
{"id": "C154", "title": "Closing and removing TCP sockets leaves nothing behind", "statement": "Every session is closed exactly once or still in the list of its socket. Removing a socket closes exactly the sessions without pending output and takes it out of service; without force and during an event this happens at the end of the event. (Counterexamples: a forced removal leaves sessions with pending output running, and adding the socket again loses them from the list; after a deferred removal the socket is removed again by the first event after it was added again.)", "quantifier": "all histories of connections, events, writes, closings, removals, additions", "why_tests_cant": "unbounded histories", "anchors": ["src/base/oonf_stream_socket.c:158-254", "src/base/oonf_stream_socket.c:454-473", "src/base/oonf_stream_socket.c:853-871"]}
{"id": "C155", "title": "TCP services listen where and admit whom the configuration says", "statement": "The address of a server socket has its family, belongs to the interface of the service (or is named by the filter), passes the filter, and exists whenever an address that passes exists on an interface that is up. The socket is rebound exactly if address or port change. Clients are admitted iff the access list of the service accepts them. (Counterexamples: filters that reject first are not respected for exactly named addresses; the access list of clients has no effect: whatever is configured, every client is admitted.)", "quantifier": "all filters, interfaces, sequences of configurations, clients", "why_tests_cant": "the space of filters and configurations is unbounded; a default configuration accepts everybody anyway", "anchors": ["src/base/oonf_stream_socket.c:362-393", "src/base/oonf_stream_socket.c:480-597", "src/base/os_generic/os_interface_generic.c:26-222"]}
{"id": "C156", "title": "A telnet session carries out what was typed, however it arrives", "statement": "Over all histories of input blocks, the commands a session carries out are those of the complete lines of the input (line ends with or without carriage return, several commands separated by slashes in lines that begin with one, `word help` meaning help for the word), in order, each once, independent of the segmentation; an open session has carried out all of them. The session stays open if no command ends it.", "quantifier": "all command sets, all command effects, all histories of input blocks, timer events and stop calls", "why_tests_cant": "splits of the input, command chains and carriage returns combine without limit", "anchors": ["src/base/oonf_telnet.c:396-516", "src/base/oonf_telnet.c:525-545"]}
{"id": "C157", "title": "Input never blocks the daemon and closing ends the session", "statement": "The handler of input returns for every content of the buffer; a session whose peer has closed the connection ends. (Proved while the connection is open, and for closing without an incomplete line that is not a chain. Counterexamples: closing behind an incomplete line makes the daemon loop forever; closing behind complete lines leaves the session open.)", "quantifier": "all buffers, all command sets", "why_tests_cant": "needs the combination of an unfinished line and a close; the daemon then hangs and the test with it", "anchors": ["src/base/oonf_telnet.c:396-516"]}
{"id": "C158", "title": "Continuous commands: one at a time, ended exactly once", "statement": "In a session at most one continuous command (`repeat`, `log`, ...) runs at any time; it is ended exactly once, before the next command, and when the session is closed no timer of it is left. The same for commands carried out via HTTP. (Proved for commands that check for a running one; counterexample: `repeat 1 route ...`, because `route` does not check and overwrites the stop handler: its timer fires in a freed session.)", "quantifier": "all command sets, all histories", "why_tests_cant": "freed memory is only used later, by a timer", "anchors": ["src/base/oonf_telnet.c:652-735", "src/base/oonf_telnet.c:374-388", "src/base/oonf_telnet.c:246-275", "src/base/remotecontrol.c:665-676"]}
{"id": "C159", "title": "Telnet access lists cannot be circumvented", "statement": "Only commands the client's address may use are called in its session, directly, in chains, by `repeat`, or without connection; `help` lists and explains only those.", "quantifier": "all command sets, access lists, clients, histories", "why_tests_cant": "each way to a command would have to be tried for each access list", "anchors": ["src/base/oonf_telnet.c:551-566", "src/base/oonf_telnet.c:525-545", "src/base/oonf_telnet.c:584-618"]}
{"id": "C160", "title": "The telnet console answers every command and prompts once per input", "statement": "After a block of input with at least one complete line the prompt is printed once, at the end, if the session is open and its echo is on; nothing else prints it. An unknown or forbidden command is answered with `unknown`; a permitted one is called. (Counterexample: after a continuous command was stopped by input the session has no echo and no prompt any more.)", "quantifier": "all sessions, all inputs, all commands", "why_tests_cant": "the answer depends on the whole history of the session", "anchors": ["src/base/oonf_telnet.c:396-516", "src/base/oonf_telnet.c:228-238", "src/base/oonf_telnet.c:692-735"]}
{"id": "C161", "title": "Commands are found by their first word", "statement": "Two texts are equal for the command comparator exactly if their first words are equal; the comparator is a consistent order, so that tree searches find every command. No byte behind the texts is read. (Counterexamples: control characters break the order; each exact match reads the byte behind the terminating NUL.)", "quantifier": "all texts", "why_tests_cant": "overreads of one byte in a stack buffer are invisible; order violations need special characters", "anchors": ["src/base/oonf_telnet.c:282-299"]}
{"id": "C162", "title": "The timeout of a telnet session is the configured one", "statement": "`timeout n` sets n seconds, applied after the same input; a session has the configured timeout until then. (Counterexamples: from 4294968 seconds on the product wraps; the configured value is replaced by 120 seconds at the first input; `timeout` without value switches the timeout off, with C157 the session is never closed.)", "quantifier": "all numbers, all histories without `timeout` command", "why_tests_cant": "needs waiting for the timeouts", "anchors": ["src/base/oonf_telnet.c:637-646", "src/base/oonf_telnet.c:306-322", "src/base/oonf_telnet.c:396-516"]}
{"id": "C163", "title": "Log messages reach exactly the handlers that want them", "statement": "After every history of registrations, removals and mask changes, a message is written by exactly the registered handlers which name its severity or a lower one for its source or for all sources, once, with its text, in order of registration; the warning counters count all warnings. Without handlers messages go to stderr. (Proved while writing does not cause new messages. Counterexamples: without handlers a warning dereferences NULL; a telnet console showing debug messages of the sockets recurses without end; with two consoles the second one gets the text of another message.)", "quantifier": "all histories, masks, messages", "why_tests_cant": "the number of combinations of handlers and masks; crashes only before the configuration or at shutdown", "anchors": ["src/libcore/oonf_logging.c:298-335", "src/libcore/oonf_logging.c:372-424", "src/libcore/oonf_logging.c:433-455", "src/generic/remotecontrol/remotecontrol.c:298-308", "src/base/os_linux/os_fd_linux.c:138"]}
{"id": "C164", "title": "Log severities and targets follow the configuration", "statement": "With a configuration all warnings are logged, information of the sources in `info` and `debug`, debug messages of the sources in `debug` (upper and lower case being the same, `all` standing for all sources). The log file is used iff configured and openable, syslog iff configured or in background without file, stderr iff configured or nothing else is; there always is a target. (Counterexample: a new file name is not used while an old file is open.)", "quantifier": "all configurations, source names, earlier states", "why_tests_cant": "combinations of settings and earlier states", "anchors": ["src/libcore/oonf_logging_cfg.c:155-252", "src/libcore/oonf_logging_cfg.c:297-311"]}
{"id": "C165", "title": "`log add` and `log remove` change what a session shows", "statement": "The commands change exactly the named sources for the named severity; after `add` the session shows what it showed and the named severity and higher ones, after `remove` no longer those messages; wrong commands are refused and change nothing. (Counterexamples: unknown severities are accepted silently, `assert` is called unknown, an unknown source leaves the ones before it changed, `remove debug all` changes nothing for the sources, `remove info` has no effect while debug is shown.)", "quantifier": "all masks, texts, source names", "why_tests_cant": "depends on the propagation of severities in the masks", "anchors": ["src/generic/remotecontrol/remotecontrol.c:249-288", "src/generic/remotecontrol/remotecontrol.c:723"]}
{"id": "C166", "title": "Log sources have their own numbers", "statement": "A registered source has a number below 128 under which its name is found after all further registrations; different names have different numbers; with 128 names in use it is the number of `main`.", "quantifier": "all histories of registrations", "why_tests_cant": "the table is never full in tests", "anchors": ["src/libcore/oonf_logging.c:195-225"]}
{"id": "C167", "title": "`route` asks the kernel for what was typed", "statement": "`route add`, `del` and `get` send exactly the typed parameters (the last one of each kind) to the kernel; without destination or known interface nothing is added or removed; invalid addresses and different families are refused. (Counterexamples: `metric` sets the table, the family of a source prefix is not checked, tables from 256 on are reduced modulo 256.)", "quantifier": "all commands, all address parsers, interfaces and numbers", "why_tests_cant": "combinations of parameters; the effect is in the kernel", "anchors": ["src/generic/remotecontrol/remotecontrol.c:542-682", "include/oonf/base/os_routing.h:162-189"]}
{"id": "C168", "title": "Datagrams leave once, unchanged and in order", "statement": "What `oonf_packet_send` accepts is given to the kernel exactly once, with its contents and destination, in the order of the calls, also if the socket is busy for some time; nothing disappears except datagrams for which the kernel reports a final error; while there is a backlog write events are asked for, and every write event makes progress. (Counterexamples: empty datagrams may be sent twice, datagrams of 64 KiB behind a backlog destroy it.)", "quantifier": "all histories of calls and events with all results of the system calls", "why_tests_cant": "the backlog is a byte buffer with its own framing; which calls find a busy socket depends on the kernel", "anchors": ["src/base/oonf_packet_socket.c:197-248", "src/base/oonf_packet_socket.c:807-847"]}
{"id": "C169", "title": "Datagrams are received as they were sent, from permitted sources", "statement": "The owner of a UDP socket gets exactly the received datagrams that fit in its buffer, and only those from sources the configured access control list accepts. (Counterexamples: the access control list is without effect; longer datagrams are cut without notice; a UDP socket that was a raw socket hands out negative lengths.)", "quantifier": "all datagrams, buffer sizes and access control lists", "why_tests_cant": "needs datagrams of unusual length and from sources that the list rejects", "anchors": ["src/base/oonf_packet_socket.c:746-805", "src/base/os_linux/os_fd_linux.c:151-165", "src/base/oonf_rfc5444.c:188"]}
{"id": "C170", "title": "Managed UDP sockets follow configuration and interface", "statement": "After a configuration is applied, unicast and multicast sockets are open at the configured addresses and ports of the configured interface, with the configured options, or closed if the interface is down; applying it again changes nothing; the owner is notified of changes. (Counterexamples: a multicast socket that cannot be opened makes RFC5444 interfaces recurse without end, as does returning from raw sockets to UDP; raw sockets ask for protocol 0; new options for open sockets, closed sockets in the notification, and interfaces behind an empty name are ignored.)", "quantifier": "all previous states, configurations, interfaces and results of the system calls", "why_tests_cant": "failures of single system calls, and sequences of configurations", "anchors": ["src/base/oonf_packet_socket.c:250-315", "src/base/oonf_packet_socket.c:515-737", "src/base/oonf_rfc5444.c:1440-1455", "src/base/os_linux/os_interface_linux.c:305-339"]}
{"id": "C171", "title": "Warnings about forbidden packets are limited but not lost", "statement": "There are at most 22 warnings about EPERM within any minute; an error is reported if there was no warning in the minute before; rare errors are all reported. (Counterexample: the number of suppressed warnings is one too high.)", "quantifier": "all sequences of less than 2^32 errors, all minutes", "why_tests_cant": "needs patterns of errors over hours", "anchors": ["src/base/oonf_packet_socket.c:453-513"]}
{"id": "C172", "title": "Sections of the import plugins follow the configuration", "statement": "After any history of added, changed and removed sections, lan_import, route_modifier and olsrv2_l2import hold, for every section name (without regard to case), exactly the last configuration, in the order of the names. (Proved for names shorter than the buffer of 16, 16 and 24 bytes. Counterexamples: changes of sections with longer names are ignored and their removal follows null pointers; of two long names with the same beginning the second is lost.)", "quantifier": "all histories of configurations, all names", "why_tests_cant": "needs histories of sections with names around the limit", "anchors": ["src/olsrv2/lan_import/lan_import.c:450-483", "src/olsrv2/lan_import/lan_import.c:578-617", "src/olsrv2/route_modifier/route_modifier.c:245-307", "src/olsrv2/olsrv2_l2import/olsrv2_l2import.c:184-231", "src/olsrv2/olsrv2_l2import/olsrv2_l2import.c:323-353"]}
{"id": "C173", "title": "lan_import imports exactly the routes its criteria select", "statement": "A section of lan_import takes notice of a new or removed route exactly if it is a unicast route not installed by OLSRv2 to a network that may be announced, and prefix length, filter, table, protocol, distance and interface name agree with the configured ones. (Proved if the interface has a name. Counterexamples: for a vanished interface the decision depends on an uninitialised array; 0 does not match all tables, protocols and metrics as the help texts say.)", "quantifier": "all routes, sections, domains and interfaces", "why_tests_cant": "the criteria are compared with kernel events, and depend on races with interfaces", "anchors": ["src/olsrv2/lan_import/lan_import.c:307-443", "src/olsrv2/lan_import/lan_import.c:146-166"]}
{"id": "C174", "title": "Imported networks are attached as long as their routes exist", "statement": "For every history of route events the networks announced by lan_import are exactly those whose last event noticed by a section is a new route, in the domains of the section, with its metric and the limited metric of the route as distance. (Proved for single events with any number of sections, and for all histories with one section. Counterexamples: two routes to the same network, changed or removed sections, changed metric of a route.)", "quantifier": "all histories of route events", "why_tests_cant": "needs histories of kernel routes and reconfiguration", "anchors": ["src/olsrv2/lan_import/lan_import.c:334-443", "src/olsrv2/lan_import/lan_import.c:485-528"]}
{"id": "C175", "title": "Metric aging of imported networks", "statement": "A network imported by a section with metric aging is announced after n periods with its metric doubled n times, at most the largest metric, then the timer ends. (Counterexamples: the timer goes on after the route or the section is removed, with freed memory; a domain added later ends it.)", "quantifier": "all metrics, numbers of periods and domains", "why_tests_cant": "long running timers in combination with removal", "anchors": ["src/olsrv2/lan_import/lan_import.c:431-433", "src/olsrv2/lan_import/lan_import.c:478-553"]}
{"id": "C176", "title": "The first matching section of route_modifier changes a route", "statement": "A route of OLSRv2 to which no section of route_modifier applies is not changed; otherwise table, protocol and distance are set as configured in the first section that applies, in the order of names, and nothing else. (Counterexample: the option domain is compared with the internal index of the domain instead of its number.)", "quantifier": "all histories of configurations and all routes", "why_tests_cant": "combinations of several sections", "anchors": ["src/olsrv2/route_modifier/route_modifier.c:196-238"]}
{"id": "C177", "title": "olsrv2_l2import announces the addresses of layer-2 neighbors", "statement": "An address of a layer-2 neighbor is announced in exactly the domains of the sections that match its origin while it exists. (Proved for single additions and removals. Counterexamples: addresses known before the section, removed sections, networks of other sections at the removal of one, unknown domains, addresses of two neighbors.)", "quantifier": "all sections, addresses and domains", "why_tests_cant": "combinations of sections and layer-2 events", "anchors": ["src/olsrv2/olsrv2_l2import/olsrv2_l2import.c:206-318"]}
{"id": "C178", "title": "Default IPv4 link-local addresses can be predicted by neighbors", "statement": "The default address is made of Jenkins' hash of the IPv6 link-local address, lies between 169.254.1.0 and 169.254.254.255, and another node that knows only the IPv6 address of a neighbor recognises exactly the neighbor's default address as taken. (Counterexample: where `char` is signed the hash differs for bytes from 128 on, which every fe80:: address has; nodes of different architectures do not predict each other.)", "quantifier": "all IPv6 addresses and candidate addresses", "why_tests_cant": "2^128 addresses; two architectures", "anchors": ["src/nhdp/auto_ll4/auto_ll4.c:545-568", "src/nhdp/auto_ll4/auto_ll4.c:685-748"]}
{"id": "C179", "title": "Automatic IPv4 addresses are free", "statement": "When the plugin sets an address then the interface is up, not the loopback and has no IPv4 address; the address is a link-local one with a prefix length of 16, and no neighbor or two-hop neighbor has it or would choose it by default. The search ends as soon as a free address is drawn. (Counterexamples: the daemon hangs if all addresses are claimed; an address outside of 169.254.1.0-169.254.254.255 is adopted from somebody else and set again.)", "quantifier": "all histories of events, interfaces, neighbors and random numbers", "why_tests_cant": "unbounded histories; random numbers; an overcrowded network", "anchors": ["src/nhdp/auto_ll4/auto_ll4.c:442-538", "src/nhdp/auto_ll4/auto_ll4.c:652-712"]}
{"id": "C180", "title": "The plugin leaves addresses of others alone", "statement": "An interface with an IPv4 address gets no other one; one whose only IPv4 address is not link-local is left alone; as soon as another IPv4 address appears the plugin withdraws its own; only link-local addresses are removed. (Counterexamples: a colliding link-local address of somebody else is removed; an address that replaced the plugin's one is removed when the plugin is switched off; the plugin's own address stays when it is switched off while there is a second address.)", "quantifier": "all histories of events and addresses of the interface", "why_tests_cant": "interplay of manual and automatic configuration", "anchors": ["src/nhdp/auto_ll4/auto_ll4.c:442-538", "src/nhdp/auto_ll4/auto_ll4.c:579-642"]}
{"id": "C181", "title": "Life cycle of automatic IPv4 addresses", "statement": "With an obedient kernel, an interface that has no IPv4 address or a link-local one has after two updates exactly one IPv4 address, link-local and free, and nothing changes any more. When the interface or the daemon goes away the address set by the plugin is removed, and nothing is requested later. (Counterexamples: switched off just before; delay 0 never starts; a second request before the answer to the first destroys the list of requests.)", "quantifier": "all states, neighbors, histories", "why_tests_cant": "timing of kernel answers and configuration changes", "anchors": ["src/nhdp/auto_ll4/auto_ll4.c:283-345", "src/nhdp/auto_ll4/auto_ll4.c:442-538", "src/nhdp/auto_ll4/auto_ll4.c:753-805", "src/base/os_linux/os_interface_linux.c:438-486"]}
{"id": "C182", "title": "Netlink messages carry their attributes", "statement": "Attributes added to a netlink message are read back from it as they are: same types, contents and order, whatever their lengths; a message never exceeds the buffer of the caller, and an attribute is refused only if it does not fit. Messages whose length is a multiple of four are found in the common buffer as they were put in. (Counterexample: other messages are not padded, the kernel misses the one that follows.)", "quantifier": "all headers, attributes and sequences of messages", "why_tests_cant": "all lengths modulo four in all combinations", "anchors": ["src/base/os_linux/os_system_linux.c:365-388", "src/base/os_linux/os_system_linux.c:443-465"]}
{"id": "C183", "title": "Netlink requests are sent in order", "statement": "Whatever the kernel, the timer and the client do: the messages that reach the kernel are those handed over, in the same order, none twice, and those still waiting follow them. Nothing is lost while sendmsg takes the buffers. A buffer is sent only when no answer is outstanding, and then as many answers are outstanding as it has messages; no buffer is empty or exceeds a page, if no message does. (Counterexample: after EAGAIN the buffer is discarded, and the client not told.)", "quantifier": "all clients, all histories of requests, socket events, datagrams and timeouts", "why_tests_cant": "unbounded interleavings of client, kernel and timer", "anchors": ["src/base/os_linux/os_system_linux.c:341-388", "src/base/os_linux/os_system_linux.c:487-565"]}
{"id": "C184", "title": "Each netlink request is answered once", "statement": "For a datagram with acknowledgements and errors the client is told about each of them once, in order, with the number of the request and its result, and as many messages are no longer in transit; for the last datagram of a dump it is told once, with the number of the dump. (Counterexamples: two ends of dumps, or an end and an answer in one datagram; a failed sendmsg is reported once for all messages of the buffer, with the number of another request.)", "quantifier": "all states, clients and datagrams", "why_tests_cant": "kernel replies in unusual groupings", "anchors": ["src/base/os_linux/os_system_linux.c:552-731"]}
{"id": "C185", "title": "The netlink queue does not stall", "statement": "As long as the kernel takes and answers everything, then while messages wait the socket is watched or answers are outstanding; and a kernel that takes and answers everything gets all messages of a client that has nothing more to say. (Counterexamples: a client that repeats its request after a timeout, or after a failed sendmsg, is never served; the end of a dump stops the timer although other answers are outstanding.)", "quantifier": "all clients and histories", "why_tests_cant": "liveness; lost answers", "anchors": ["src/base/os_linux/os_system_linux.c:341-388", "src/base/os_linux/os_system_linux.c:471-565", "src/base/os_linux/os_system_linux.c:574-703"]}
{"id": "C186", "title": "Addresses of network interfaces follow the kernel", "statement": "The addresses and peers recorded for an interface are those whose last message of the kernel announces them, in order and without duplicates; the order of the attributes of a message does not matter; messages about other interfaces do not matter; each of the four shortcuts is at any time the first recorded address that is routable or link-local of its family, or unspecified if there is none. (Counterexamples: the addresses of an interface that went away stay for ever, even if all addresses are queried again; the hardware address of an InfiniBand interface is written beyond the end of a structure.)", "quantifier": "all sequences of messages", "why_tests_cant": "unbounded histories; interfaces that come and go", "anchors": ["src/base/os_linux/os_interface_linux.c:1019-1246", "src/libcommon/netaddr.c:162-200"]}
{"id": "C187", "title": "Queries of links and addresses are complete", "statement": "There is at most one query in progress; a query that fails is repeated; whenever none is in progress, a query of the links and one of the addresses have been made since the last interface was added, and have ended well; three queries that end well suffice. (Counterexamples: after one query that is not answered in time or cannot be sent, no query is ever sent again, although interfaces are added.)", "quantifier": "all histories of new interfaces and answers", "why_tests_cant": "lost answers, failures of sendmsg", "anchors": ["src/base/os_linux/os_interface_linux.c:836-904", "src/base/os_linux/os_interface_linux.c:1322-1388", "src/base/os_linux/os_system_linux.c:341-565"]}
{"id": "C188", "title": "Listeners of an interface are told about changes", "statement": "When the timer fires and the data of the interface are complete, exactly the marked listeners are called, and those whose handlers fail stay marked. A single listener, and listeners that are added in the beginning and whose handlers do not fail, will be told of each change. (Counterexamples: a change while the timer runs for a new listener, or for one whose handler failed, is not told to the others; listeners of an interface without addresses are never told anything.)", "quantifier": "all histories of listeners, changes and timer events, all results of handlers", "why_tests_cant": "timing of changes against a timer", "anchors": ["src/base/os_linux/os_interface_linux.c:306-390", "src/base/os_linux/os_interface_linux.c:911-938", "src/base/os_linux/os_interface_linux.c:1395-1429"]}
{"id": "C189", "title": "Mesh settings of the kernel", "statement": "As long as nothing is removed, an interface with a mesh listener has its settings, and forwarding is on. For the first use of the first interface: the settings are made with the first mesh listener, stay while there is one, and with the last one all files get the contents they had before. (Counterexamples: of two mesh interfaces one is removed; the only one is removed and added again; a second mesh listener of an interface that stayed; the section of the interface is removed; the loopback.)", "quantifier": "all histories of listeners, all contents of the files", "why_tests_cant": "order of interface events; restored state of the system", "anchors": ["src/base/os_linux/os_interface_linux.c:306-370", "src/base/os_linux/os_interface_linux.c:588-830", "src/base/os_linux/os_interface_linux.c:1451-1503"]}
{"id": "C190", "title": "Each request for an address is answered once", "statement": "Each request to set or remove an address is waiting or has been answered, and neither twice; an answer of the kernel goes to the request with its number, with its result. (Counterexample: when the kernel does not answer in time, the daemon dereferences a null pointer if any request is waiting.)", "quantifier": "all sequences of requests, answers and interruptions", "why_tests_cant": "a kernel that does not answer", "anchors": ["src/base/os_linux/os_interface_linux.c:439-502", "src/base/os_linux/os_interface_linux.c:1254-1316"]}
{"id": "C191", "title": "Messages to the kernel say exactly which route is meant", "statement": "os_routing_set with a proper route produces one netlink message from which, by the rules for route messages (and by the parser of the same file), exactly the route given is read: family, type (unicast if none is given), destination (0/0 if none is given), IPv6 source prefix, gateway (an IPv4 host without gateway is its own gateway), preferred source address, metric, table, protocol and interface; setting asks for create or replace. A message to remove a route names the same destination, source prefix, gateway, metric and table and leaves protocol and preferred source open, and with del_similar also interface and scope. Only routes with addresses of different families are refused.", "quantifier": "for all routes (all address families, addresses, prefix lengths, types, metrics, tables, protocols, interfaces), setting and removing, with and without del_similar", "why_tests_cant": "The messages can only be observed by the kernel; a test needs root privileges and sees the effect of a few combinations of optional attributes, not the 64 combinations with all values.", "anchors": ["src/base/os_linux/os_routing_linux.c:203-271", "src/base/os_linux/os_routing_linux.c:385-480", "src/base/os_linux/os_routing_linux.c:490-563"]}
{"id": "C192", "title": "Queries for routes return exactly the routes that pass the filter", "statement": "A query for routes reports a route of the kernel if and only if it has each of the values given in the filter (family, type, destination, source prefix, gateway, preferred source, metric, table, protocol, interface); the wildcard route passes everything, and a route that has been set is found by itself.", "quantifier": "for all filters and routes", "why_tests_cant": "There are ten fields with wildcards of different kinds (0, -1, an address of unspecified family); tests cover single fields, and not the rewriting of routes on the way to the kernel and back.", "anchors": ["src/base/os_linux/os_routing_linux.c:572-605", "src/base/os_linux/os_routing_linux.c:356-359", "src/base/os_linux/os_routing_linux.c:490-563"]}
{"id": "C193", "title": "Each request for a route is answered once", "statement": "For each request to set, remove or query routes with a callback the callback is called exactly once: with the result from the kernel, with -1 if it is interrupted or the netlink socket runs into a timeout, or at the end of the program; it is the callback of the object that made the request, and later messages with its sequence number do not reach it.", "quantifier": "for all histories of requests, answers (in any order, repeated, unknown), interrupts, notifications and timeouts; for timeouts with callbacks that make new requests", "why_tests_cant": "Timeouts with several waiting requests and callbacks that use the same interface do not happen in tests with a working kernel.", "anchors": ["src/base/os_linux/os_routing_linux.c:165-174", "src/base/os_linux/os_routing_linux.c:203-330", "src/base/os_linux/os_routing_linux.c:368-375", "src/base/os_linux/os_routing_linux.c:666-716"]}
{"id": "C194", "title": "Notifications about routes reach the listeners, answers to queries the query", "statement": "Routes reported by the kernel in an answer to a query reach the callback of this query (if they pass the filter) and no listener; all other reports of new and removed routes reach the listeners, once, with the information whether the route was set or removed.", "quantifier": "for all states and messages", "why_tests_cant": "Depends on coincidences of the sequence numbers of different programs.", "anchors": ["src/base/os_linux/os_routing_linux.c:612-658"]}
{"id": "C195", "title": "Addresses of layer2 neighbors are exported as routes", "statement": "While a layer2 neighbor has an IP address from a matching originator, the kernel has a route to this address through this neighbor, with metric, table and protocol of the section; when the address goes away the route is removed. This holds as soon as all requests are answered.", "quantifier": "for all histories of addresses coming and going and of answers of the kernel", "why_tests_cant": "The sequences of changes between request and answer, several neighbors with the same address and overlapping sections need control over the timing of netlink messages.", "anchors": ["src/generic/layer2_export/layer2_export.c:340-375", "src/generic/layer2_export/layer2_export.c:383-409", "src/generic/layer2_export/layer2_export.c:416-460", "src/generic/layer2_export/layer2_export.c:467-487"]}
{"id": "C196", "title": "Configuration of layer2 export", "statement": "Removing a section removes its routes from the kernel; adding or changing a section makes the routes in the kernel correspond to the new configuration.", "quantifier": "for all states", "why_tests_cant": "Reconfiguration with existing routes is not tested.", "anchors": ["src/generic/layer2_export/layer2_export.c:240-280", "src/generic/layer2_export/layer2_export.c:493-518", "src/generic/layer2_export/layer2_export.c:68-74"]}
{"id": "C197", "title": "Patterns for originators", "statement": "A section exports the addresses of the originators that have its name, and if the name ends with an asterisk of all originators whose name begins with the rest.", "quantifier": "for all names and patterns", "why_tests_cant": "Tests use a few short names.", "anchors": ["src/generic/layer2_export/layer2_export.c:289-302", "src/generic/layer2_export/layer2_export.c:240-262"]}
{"id": "C198", "title": "A DLEP radio tells its routers what is in the layer2 database", "statement": "After the initialization a session of a DLEP radio has sent one DESTINATION_UP for each direct neighbor (if neighbors are reported) and each proxied destination (if these are reported); from then on the destinations that were announced and not taken back are exactly those of the layer2 database.", "quantifier": "for all sequences of changes of the layer2 database, sessions, acknowledgements and timeouts, and all configurations", "why_tests_cant": "Tests look at a few neighbors; the default configuration needs proxied destinations that come and go after the initialization.", "anchors": ["src/generic/dlep/ext_base_proto/proto_radio.c:252-324", "src/generic/dlep/ext_base_proto/proto_radio.c:507-732", "src/generic/dlep/dlep_session.c:455-535", "src/generic/dlep/radio/dlep_radio.c:111-113"]}
{"id": "C199", "title": "Acknowledgements of destinations", "statement": "The acknowledgement of a destination ends the waiting for it and sends the update that waited; other acknowledgements and refusals change nothing, and no answer of the router harms the radio.", "quantifier": "for all states of a session, all keys, and all orders of events and answers", "why_tests_cant": "The order of events and answers depends on timing.", "anchors": ["src/generic/dlep/ext_base_proto/proto_radio.c:370-415", "src/generic/dlep/ext_base_proto/proto_radio.c:735-742", "src/generic/dlep/dlep_session.c:843-850"]}
{"id": "C200", "title": "The end of a DLEP session concerns no other session", "statement": "When a session of a radio ends, its state and timers are gone, and the other sessions go on as before; a session announces nothing before it is initialized.", "quantifier": "for all numbers of sessions and all later events", "why_tests_cant": "Tests use one session.", "anchors": ["src/generic/dlep/ext_base_proto/proto_radio.c:188-225", "src/generic/dlep/radio/dlep_radio_session.c:118-186", "src/generic/dlep/dlep_session.c:182-209"]}
{"id": "C201", "title": "The layer2 database of a DLEP router mirrors the radio", "statement": "After reading the messages of a radio the layer2 network of the router contains exactly the destinations the radio reports and the neighbors known from elsewhere; each announcement and withdrawal is acknowledged; after the end of the session nothing of it is left.", "quantifier": "for all histories of the radio, all contents of the database of the router", "why_tests_cant": "Needs two programs, all histories, and destinations without metrics.", "anchors": ["src/generic/dlep/ext_base_proto/proto_router.c:200-224", "src/generic/dlep/ext_base_proto/proto_router.c:457-611", "src/base/oonf_layer2.c:888-947"]}
{"id": "C202", "title": "The connection point a DLEP router chooses", "statement": "From a peer offer the router takes a connection point without TLS it can reach: the last link-local IPv6 one, else the first IPv6 one, else the first IPv4 one. Otherwise it uses the address of the sender and the port of DLEP, and no connection without TLS goes to a point offered for TLS.", "quantifier": "for all lists of connection points, own addresses and senders", "why_tests_cant": "Combinations of offers are not tested; the value of an uninitialized variable is not reproducible.", "anchors": ["src/generic/dlep/ext_base_proto/proto_router.c:255-342", "src/generic/dlep/dlep_reader.c:309-386"]}
{"id": "C203", "title": "Outgoing DLEP connections give back what they took", "statement": "The open descriptors of the router are those of its sessions, descriptors of other parts of the program are never touched, and the object of a session is freed when the session ends.", "quantifier": "for all sequences of connections, failures, closings, and descriptors of others", "why_tests_cant": "Closing a foreign descriptor shows up elsewhere, long after; leaks need many connections.", "anchors": ["src/generic/dlep/router/dlep_router_session.c:115-250", "src/base/oonf_stream_socket.c:157-286", "src/base/oonf_stream_socket.c:456-475", "include/oonf/base/os_linux/os_fd_linux.h:289-297"]}
{"id": "C204", "title": "Events reach the handlers of their sockets", "statement": "Of the sockets the kernel reports, exactly those with something to read or to write are served, once each, in the order of the report, and their handlers see the events that were reported; no memory of a closed socket is used.", "quantifier": "for all sets of sockets, all reports of the kernel and all handlers", "why_tests_cant": "Which events are reported together depends on the timing of the network; a use of freed memory mostly goes unnoticed.", "anchors": ["src/base/oonf_socket.c:200-274", "src/base/os_linux/os_fd_linux.c:98-121"]}
{"id": "C205", "title": "The kernel knows which events a socket wants", "statement": "The kernel reports events for reading and writing exactly for the sockets in the scheduler that asked for them since they were added.", "quantifier": "for all sequences of adding, removing and asking", "why_tests_cant": "Needs a socket that is removed while it waits for room in its buffer and that is added again.", "anchors": ["src/base/oonf_socket.c:142-187", "include/oonf/base/os_linux/os_fd_linux.h:339-407", "src/base/os_linux/os_fd_linux.c:123-141"]}
{"id": "C206", "title": "Waiting and returning of the scheduler", "statement": "The scheduler sleeps until the next timer, an event, or the end of the program, never longer and never without need; asked to return it does so before the next wait; after the begin of the shutdown it serves timers and sockets for the remaining time, and then ends.", "quantifier": "for all sequences of clock values, timers, signals, events and failures of system calls", "why_tests_cant": "Depends on real time and on signals at chosen moments.", "anchors": ["src/base/oonf_socket.c:124-131", "src/base/oonf_socket.c:192-274", "src/base/os_linux/os_fd_linux.c:98-121", "src/libcore/oonf_main.c:276-283"]}
{"id": "C207", "title": "The main loop applies the configuration on request", "statement": "A reload or a commit applies the configuration exactly once, then the program goes on; the exit code tells whether there was an error.", "quantifier": "for all sequences of results of the scheduler, requests, and results of reading and applying the configuration", "why_tests_cant": "Needs configurations that become invalid while the program runs.", "anchors": ["src/libcore/oonf_main.c:337-339", "src/libcore/oonf_main.c:396-435", "src/libcore/oonf_cfg.c:339-427"]}
{"id": "C208", "title": "Neighbors without traffic are probed in turn", "statement": "In each round at most one neighbor is probed: among the symmetric links on interfaces that are to be probed, to which no frame was sent since the last round, the one that waited longest. A link with traffic or a probe begins to wait anew. A link that stays usable and idle is probed after at most as many rounds as there are links. The probe goes to the address of the neighbor.", "quantifier": "all sets of links, interface settings, counters, clock values and histories of rounds", "why_tests_cant": "The choice depends on the history of all links; starvation needs long runs.", "anchors": ["src/nhdp/neighbor_probing/neighbor_probing.c:_cb_probe_link", "src/nhdp/neighbor_probing/neighbor_probing.c:_check_if_type"]}
{"id": "C209", "title": "Parameters of attached networks mean what was written", "statement": "A value of the option `lan` is accepted exactly if its parameters are legal, and stands for the last value given for each parameter or the default; accepted values have a metric and a distance that can be sent; a value accepted by the validation is applied.", "quantifier": "all lists of parameters, numbers and previous error numbers", "why_tests_cant": "The outcome depends on an error number left by any earlier call and on numbers beyond 32 bit.", "anchors": ["src/olsrv2/olsrv2_old_lan/old_lan.c:_parse_lan_parameters", "src/olsrv2/olsrv2_old_lan/old_lan.c:olsrv2_validate_lan"]}
{"id": "C210", "title": "A changed list of attached networks replaces the old one", "statement": "After a change of the option `lan`, each prefix is announced in each domain exactly as the last line for it says; prefixes only in the old list are not announced any more; others are unaffected.", "quantifier": "all old and new lists, domains and announced networks", "why_tests_cant": "Combinations of lists, domains and overlapping prefixes.", "anchors": ["src/olsrv2/olsrv2_old_lan/old_lan.c:_parse_lan_array", "src/olsrv2/olsrv2_old_lan/old_lan.c:_cb_cfg_olsrv2_changed", "src/nhdp/nhdp/nhdp_domain.c:nhdp_domain_add"]}
{"id": "C211", "title": "Changed sections of attached networks take effect", "statement": "After a change of the sections `olsrv2_lan`, each configured prefix is announced with the values of its section, and a prefix no section has any more is not announced.", "quantifier": "all sequences of changed sections, domains and announced networks", "why_tests_cant": "Sections are handled one after the other; only combinations that move a prefix between sections show the loss.", "anchors": ["src/olsrv2/olsrv2_lan/olsrv2_lan.c:_cb_cfg_olsrv2_lan_changed", "src/olsrv2/olsrv2_lan/olsrv2_lan.c:_apply_lan_data"]}
{"id": "C212", "title": "Configured link data is in the database and follows the configuration", "statement": "After each change of a section `link_config` the database contains exactly the values that the section of each interface assigns (for the interface or for the named neighbors), except where data with higher priority is present, and values that are not configured any more are gone.", "quantifier": "all sections, databases with data of any origin, sequences of changes and interface names", "why_tests_cant": "Needs repeated changes with different sections and interfaces, and a second data source.", "anchors": ["src/generic/link_config/link_config.c:_parse_strarray", "src/generic/link_config/link_config.c:_cb_config_changed", "src/generic/link_config/link_config.c:_cb_update_link_config", "src/base/oonf_layer2.c:oonf_layer2_data_set"]}
{"id": "C213", "title": "A link has the cost configured for its neighbor", "statement": "The metric of a link is that of the most special configured entry: for this neighbor on this interface, for this neighbor on any interface, for all neighbors on this interface, for all neighbors; or infinite if there is none. It stays correct when links, configuration or originators change.", "quantifier": "all configurations (sequences of sections), links with and without dualstack partners, and sequences of events", "why_tests_cant": "The search has six steps for each link, and its result is stale after particular sequences of events only.", "anchors": ["src/nhdp/constant_metric/constant_metric.c:_cb_cfg_changed", "src/nhdp/constant_metric/constant_metric.c:_cb_set_linkcost", "src/nhdp/constant_metric/constant_metric.c:_get_linkcost", "src/nhdp/constant_metric/constant_metric.c:_cb_link_added"]}
{"id": "C214", "title": "Incorrect HELLO messages are dropped", "statement": "With the plugin nhdpcheck exactly the HELLO messages that obey RFC 6130, section 12.1, reach NHDP: correct header, exactly one VALIDITY_TIME, at most one INTERVAL_TIME that is not longer, and for each address at most one LOCAL_IF, LINK_STATUS and OTHER_NEIGHB each, LOCAL_IF alone.", "quantifier": "all headers, lists of message TLVs and lists of addresses with TLVs", "why_tests_cant": "Peers send correct messages; the missing check of the addresses has no effect then.", "anchors": ["src/nhdp/nhdpcheck/nhdpcheck.c:_cb_message_start_callback", "src/nhdp/nhdpcheck/nhdpcheck.c:_cb_messagetlvs", "src/nhdp/nhdpcheck/nhdpcheck.c:_cb_addresstlvs", "src/librfc5444/rfc5444_reader.c:rfc5444_reader_handle_packet"]}
{"id": "C215", "title": "Imported routes are in the layer2 database", "statement": "Each section of layer2_import that a kernel route matches stores its gateway for its destination in the layer2 database; the entry is there as long as a matching route exists, for each section independently of the others.", "quantifier": "all lists of imports, databases, hardware addresses known so far and sequences of route events", "why_tests_cant": "Tests use one import and one route per destination.", "anchors": ["src/generic/layer2_import/layer2_import.c:_cb_rt_event", "src/generic/layer2_import/layer2_import.c:_remove_old_entries", "src/generic/layer2_import/layer2_import.c:_cb_reload_routes"]}
{"id": "C216", "title": "Changing an import changes only its own entries", "statement": "Removing a section of layer2_import removes exactly the entries of this section and its listeners; changing a section leaves exactly the entries that match the new filter.", "quantifier": "all sequences of configuration changes", "why_tests_cant": "What is left behind by an old section is not looked at.", "anchors": ["src/generic/layer2_import/layer2_import.c:_cb_cfg_changed", "src/generic/layer2_import/layer2_import.c:_remove_import", "src/generic/layer2_import/layer2_import.c:_add_import"]}
{"id": "C217", "title": "Configured layer2 data is in the database", "statement": "After the configuration of an interface was applied (by a change or by the delayed update) the layer2 database has each configured value unless another source of higher priority has set it, no value of layer2_config that is not configured, and all data of others is untouched. This holds for data, default data, addresses and destinations, and when the section is removed.", "quantifier": "all databases and lists of entries", "why_tests_cant": "Combinations of six kinds of entries, two priorities and repeated updates.", "anchors": ["src/generic/layer2_config/layer2_config.c:_configure_if_data", "src/generic/layer2_config/layer2_config.c:_set_if_data", "src/generic/layer2_config/layer2_config.c:_reset_if_data", "src/generic/layer2_config/layer2_config.c:_cb_config_changed", "src/generic/layer2_config/layer2_config.c:_cb_telnet_cmd"]}
{"id": "C218", "title": "Configured interfaces are found again", "statement": "For each configured interface layer2_config finds the data of the last configuration, however the interfaces are configured and reconfigured.", "quantifier": "all sequences of configured interfaces", "why_tests_cant": "The tree is damaged in silence; it needs two interfaces and a reload.", "anchors": ["src/generic/layer2_config/layer2_config.c:_add_if_data", "src/generic/layer2_config/layer2_config.c:_cb_config_changed", "src/generic/layer2_config/layer2_config.c:_remove_if_data", "src/libcommon/avl.c:avl_insert", "src/libcommon/avl.c:avl_remove"]}
{"id": "C219", "title": "Numbers of wireless stations are right", "statement": "Counters of which the kernel reports 32 bit only are continued in 64 bit without loss; rates reported in 100 kbit/s are stored in bit/s; the maximal rates for sending and reception are those of the fastest supported modulation; the multicast rate is in proportion to the bandwidth.", "quantifier": "all sequences of counter values, rates, modulation sets and bandwidths", "why_tests_cant": "A counter wraps after 2^32 packets; errors of a few percent look right.", "anchors": ["src/generic/nl80211_listener/nl80211_get_station_dump.c:_handle_traffic", "src/generic/nl80211_listener/nl80211_get_station_dump.c:_get_bitrate", "src/generic/nl80211_listener/nl80211_get_wiphy.c:_get_max_bitrate", "src/generic/nl80211_listener/nl80211_get_wiphy.c:_process_ht_mcs_array", "src/generic/nl80211_listener/nl80211_get_wiphy.c:_process_vht_mcs_array", "src/generic/nl80211_listener/nl80211_get_interface.c:nl80211_process_get_interface_result"]}
{"id": "C220", "title": "The layer2 database shows what the kernel reported last", "statement": "After each series of queries for a wireless interface the data of nl80211 in the layer2 database is what the kernel reported in this series: values not reported any more and stations that left are gone, data of higher priority is untouched.", "quantifier": "all databases and sequences of series of reports", "why_tests_cant": "Needs stations that leave while nothing else changes.", "anchors": ["src/generic/nl80211_listener/nl80211_listener.c:_get_next_query", "src/generic/nl80211_listener/nl80211_listener.c:nl80211_change_l2net_data", "src/generic/nl80211_listener/nl80211_listener.c:nl80211_change_l2neigh_data", "src/generic/nl80211_listener/nl80211_listener.c:nl80211_cleanup_l2neigh_data", "src/generic/nl80211_listener/nl80211_get_station_dump.c:nl80211_process_get_station_dump_result", "src/generic/nl80211_listener/nl80211_get_mpp.c:nl80211_process_get_mpp_result"]}
{"id": "C221", "title": "All wireless interfaces are asked, one query after the other", "statement": "With each timer event the plugin asks the kernel all five queries for each interface that is up, in order, each after the end of the one before, and then waits for the timer; a failed query does not stop it, and no interface is used after its removal.", "quantifier": "all lists of interfaces and sequences of events", "why_tests_cant": "Needs failing queries or a changed configuration while a query is under way.", "anchors": ["src/generic/nl80211_listener/nl80211_listener.c:_get_next_query", "src/generic/nl80211_listener/nl80211_listener.c:_trigger_next_netlink_query", "src/generic/nl80211_listener/nl80211_listener.c:_cb_transmission_event", "src/generic/nl80211_listener/nl80211_listener.c:_cb_nl_message", "src/generic/nl80211_listener/nl80211_listener.c:_cb_nl_error", "src/generic/nl80211_listener/nl80211_listener.c:_cb_nl_timeout", "src/generic/nl80211_listener/nl80211_listener.c:_cb_nl_done", "src/generic/nl80211_listener/nl80211_listener.c:_nl80211_if_remove"]}
{"id": "C222", "title": "Exactly the configured interfaces are watched", "statement": "An interface is watched by nl80211_listener exactly if it has an interface section or is in the list of the plugin, after any sequence of configuration changes.", "quantifier": "all sequences of configuration changes", "why_tests_cant": "Combinations of two sources over several reloads.", "anchors": ["src/generic/nl80211_listener/nl80211_listener.c:_cb_config_changed", "src/generic/nl80211_listener/nl80211_listener.c:_cb_if_config_changed", "src/generic/nl80211_listener/nl80211_listener.c:_nl80211_if_add"]}
{"id": "C223", "title": "Message creators live as long as they are used", "statement": "A message type can be generated exactly as long as it is registered or has an address TLV type or a content provider of its own; its content providers are called by priority and in the order of registration; it can be registered once at a time; after the owner has unregistered it its callbacks are not called any more; the cleanup of the writer removes everything that is registered; no object is used after it was freed.", "quantifier": "all sequences of registrations and removals of messages, TLV types, content providers and forward handlers", "why_tests_cant": "The lifetime of the shared object depends on the order in which several plugins are loaded and unloaded.", "anchors": ["src/librfc5444/rfc5444_writer.c:_get_message", "src/librfc5444/rfc5444_writer.c:_lazy_free_message", "src/librfc5444/rfc5444_writer.c:rfc5444_writer_register_msgcontentprovider", "src/librfc5444/rfc5444_writer.c:rfc5444_writer_unregister_content_provider", "src/librfc5444/rfc5444_writer.c:rfc5444_writer_register_message", "src/librfc5444/rfc5444_writer.c:rfc5444_writer_cleanup"]}
{"id": "C224", "title": "Addresses and TLVs of a message are what its providers asked for", "statement": "Every address that content providers add is in the message once, with exactly the accepted TLVs and their values; mandatory addresses are in front so that every fragment has them; a TLV is accepted exactly when doubles are allowed or there is none of its type and the value fits into the buffer, and a refused one changes nothing; nothing is left for the next message.", "quantifier": "all sequences of calls of content providers, all buffer sizes", "why_tests_cant": "Values share one buffer and addresses are shared by several providers.", "anchors": ["src/librfc5444/rfc5444_writer.c:rfc5444_writer_add_address", "src/librfc5444/rfc5444_writer.c:rfc5444_writer_add_addrtlv", "src/librfc5444/rfc5444_writer.c:_copy_addrtlv_value", "src/librfc5444/rfc5444_writer.c:_rfc5444_writer_free_addresses"]}
{"id": "C225", "title": "Domains use the algorithms their configuration asks for", "statement": "A configured domain uses the metric or MPR algorithm its configuration names (`*`: any that is registered, otherwise the default one), as soon as it is registered; an algorithm is activated when the first domain uses it and deactivated after the last one, never in between; no domain uses an algorithm after it was removed.", "quantifier": "all sequences of registrations and removals of algorithms and configurations of domains", "why_tests_cant": "Depends on the order of loading plugins and applying configurations, and on several domains that share an algorithm.", "anchors": ["src/nhdp/nhdp/nhdp_domain.c:_apply_metric", "src/nhdp/nhdp/nhdp_domain.c:_apply_mpr", "src/nhdp/nhdp/nhdp_domain.c:_remove_metric", "src/nhdp/nhdp/nhdp_domain.c:_remove_mpr", "src/nhdp/nhdp/nhdp_domain.c:nhdp_domain_mpr_add", "src/nhdp/nhdp/nhdp_domain.c:nhdp_domain_mpr_remove", "src/nhdp/nhdp/nhdp_domain.c:nhdp_domain_metric_remove"]}
{"id": "C226", "title": "Outdated MPR sets are recalculated", "statement": "Before a HELLO is sent the MPR set of every domain marked as outdated is replaced by the one its algorithm selects, the listeners are called exactly for the domains whose set has changed, and other domains are not touched.", "quantifier": "all sets, algorithms, numbers of domains and marks", "why_tests_cant": "Depends on what changed since the last HELLO in which domain.", "anchors": ["src/nhdp/nhdp/nhdp_domain.c:nhdp_domain_recalculate_mpr", "src/nhdp/nhdp/nhdp_domain.c:_recalculate_routing_mpr_set", "src/nhdp/nhdp/nhdp_domain.c:_recalculate_flooding_mpr_set", "src/nhdp/nhdp/nhdp_domain.c:nhdp_domain_delayed_mpr_recalculation"]}
{"id": "C227", "title": "Link speeds of interfaces become default bit rates", "statement": "Every run of the ethernet listener gives each interface whose speed the kernel knows (its own or that of the interface below it; 0, 65535 and 2^32-1 mean unknown) that speed in bit/s as default receive and transmit bit rate, unless another source of the same or a higher priority wrote the value, and marks it as Ethernet if its type was unknown; nothing else in the layer2 database changes and the daemon does not abort.", "quantifier": "for all answers of the kernel, all lists of interfaces with different names and all contents of the layer2 database", "why_tests_cant": "Interaction with other writers of the same entries (a withdrawn value loses its metadata and the next run aborts) needs several plugins and a particular order of events.", "anchors": ["src/generic/eth_listener/eth_listener.c:160-231", "src/base/oonf_layer2.c:342-388", "src/base/oonf_layer2.c:490-536", "include/oonf/base/oonf_layer2.h:985-988"]}
{"id": "C228", "title": "Tunnels exist exactly for added objects", "statement": "After any calls of os_tunnel_add and os_tunnel_remove the kernel has exactly the tunnels of the objects that were added and not removed again, on the device that belongs to the kind of the tunnel; a call that fails changes nothing; tunnels of other programs are not touched; at the end of the daemon none of its tunnels is left.", "quantifier": "for all objects, all tunnels of other programs, all answers of the kernel and all sequences of calls", "why_tests_cant": "Depends on the tunnels other programs created and on names that differ only in case; tests need privileges and a kernel with all tunnel modules.", "anchors": ["src/base/os_linux/os_tunnel_linux.c:155-438", "include/oonf/base/os_tunnel.h:66-110"]}
{"id": "C229", "title": "Opening and closing virtual interfaces", "statement": "A successful os_vif_open followed by os_vif_close closes the file descriptor of the virtual interface and nothing else; a failed open changes nothing; opening an object twice is refused.", "quantifier": "for all objects, sockets and answers of the kernel", "why_tests_cant": "No caller in the tree; the missing assignment of the socket only shows when an object is closed.", "anchors": ["src/base/os_linux/os_vif_linux.c:78-176", "include/oonf/base/os_vif.h:81-96", "include/oonf/base/os_linux/os_fd_linux.h:290-297"]}
{"id": "C230", "title": "Changes lead to a recalculation of routes, in time and not too often", "statement": "A recalculation of shortest paths covers exactly the domains that were reported as changed since they were last recalculated. A domain that was reported as changed is recalculated at the latest when the main loop runs 1.1 seconds later, unless routes are frozen or the program shuts down. Without an explicit request to skip the waiting time two recalculations are at least one second apart. A change of the parameters of a domain leads to a recalculation of that domain.", "quantifier": "all sets of domains, all sequences of change reports, NHDP events, triggers, forced updates, timer walks, freezes, parameter changes and shutdown", "why_tests_cant": "depends on the history of flags and a shared timer; tests see a few short sequences", "anchors": ["src/olsrv2/olsrv2/olsrv2_routing.c:231-430", "src/olsrv2/olsrv2/olsrv2_routing.c:455-489", "src/olsrv2/olsrv2/olsrv2_routing.c:1140-1146", "src/base/oonf_timer.c:336-359"]}
{"id": "C231", "title": "The ANSN identifies the announced topology", "statement": "Two TC messages of this router that are less than 65536 recalculations apart carry the same answer set number (ANSN) if and only if the announced topology did not change between them.", "quantifier": "all sequences of changes, recalculations, freezes and TC messages", "why_tests_cant": "the wrong order needs a TC between a change and the rate limited recalculation", "anchors": ["src/olsrv2/olsrv2/olsrv2_routing.c:283-334", "src/olsrv2/olsrv2/olsrv2_routing.c:455-489", "src/olsrv2/olsrv2/olsrv2_writer.c:531-541"]}
{"id": "C232", "title": "A configuration URL selects the handler it names", "statement": "A URL of the form handler://rest is given to the registered handler with exactly this name (ignoring case) with the parameter rest, a text without :// goes to the default handler as a whole, or to the first one if there is no default; if there is no such handler the call fails with an error.", "quantifier": "all registries, all defaults, all URLs", "why_tests_cant": "names that are prefixes of each other and empty registries do not occur in tests", "anchors": ["src/libconfig/cfg_io.c:160-195", "src/libconfig/cfg.c:237-260"]}
{"id": "C233", "title": "Time does not run backwards", "statement": "Successive readings of the clock never decrease, and the time since the start is the difference of two readings.", "quantifier": "all answers of the operating system", "why_tests_cant": "the system clock is not set back during tests", "anchors": ["src/base/os_linux/os_clock_linux.c:94-153", "src/base/oonf_clock.c:106-117"]}
{"id": "C234", "title": "Numbers survive printing and reading", "statement": "The text printed for a 64 bit number, signed or unsigned, is read back as the same number; the text of a negative number is a minus sign followed by the text of its absolute value.", "quantifier": "all unsigned and signed 64 bit numbers, for the second part all scalings and styles", "why_tests_cant": "the smallest signed number and very large numbers are rarely tested", "anchors": ["src/libcommon/isonumber.c:71-145", "src/libcommon/isonumber.c:155-234", "src/libcommon/isonumber.c:248-330"]}
{"id": "C235", "title": "The running kernel is compared with the required version", "statement": "`os_system_linux_is_minimal_kernel` answers whether the version in the release of the running kernel is at least the required one, comparing the three numbers one after the other, whatever follows them; a version that cannot be read counts as too old; a yes for one requirement is a yes for every older one; source specific routing is used for IPv6 from 3.11.0 on. (Counterexample: releases with two numbers, `3.11-2-amd64`, are denied to be 3.11.0.)", "quantifier": "for all releases that begin with numbers below 2^31 and all required versions", "why_tests_cant": "the tests run on one kernel", "anchors": ["src/base/os_linux/os_system_linux.c:184-226", "src/base/os_linux/os_routing_linux.c:158-190"]}
{"id": "C236", "title": "Packets leave through the socket of their address family, and the result tells what happened", "statement": "`oonf_packet_send_managed` hands a datagram to the socket of the family of its destination, once and to no other; the result is 0 if it was taken, 1 exactly if there is no open socket for the family, -1 exactly if the kernel refused it; a socket the kernel does not know is closed and the configuration applied again, without effect on the other family; multicasts go to the multicast address of the interface; nothing is sent while output is blocked. (Counterexamples: multicast that is switched off returns 0; packets for another group are sent to the group of the interface.)", "quantifier": "for all states of the sockets, destinations, and answers of the kernel", "why_tests_cant": "needs sockets in all states and failing system calls", "anchors": ["src/base/oonf_packet_socket.c:330-403", "src/base/oonf_rfc5444.c:877-929", "src/base/oonf_rfc5444.c:1121-1171"]}
{"id": "C237", "title": "Radio and router of a DLEP session mean the same destination", "statement": "If a radio with any configured link id length announces, updates and takes down destinations, the router reads exactly their keys (MAC address and link id), its layer2 neighbors are exactly the destinations that are up, and everything is acknowledged in order; different keys have different TLVs; link ids of a wrong length, lengths above 16 and removals of unknown destinations end the session. (Counterexamples: a radio configured for no link ids makes the router expect four bytes; link ids the daemon generates always have four bytes, with every other configured length these neighbors are not announced.)", "quantifier": "for all configured lengths from 0 to 15, all keys, all sequences of messages", "why_tests_cant": "needs two daemons and link ids of all lengths", "anchors": ["src/generic/dlep/ext_lid/lid.c:186-247", "src/generic/dlep/dlep_extension.c:200-217", "src/generic/dlep/ext_base_proto/proto_router.c:455-596", "src/generic/dlep/dlep_session.c:454-464"]}
{"id": "C238", "title": "The layer2 generator keeps one neighbor", "statement": "While it is active, the layer2 generator keeps one neighbor with the configured address, and the event counter as link id; the counter counts the events while it is active; nothing happens while it is inactive; switching it off removes what it made. (Counterexamples: it changes the key of a neighbor that is in the tree, so every event adds a neighbor, and from the second event on the tree holds neighbors that are not found.)", "quantifier": "for all sequences of events and reconfigurations, all ways to balance the tree", "why_tests_cant": "the plugin has no test, and one event alone is correct", "anchors": ["src/generic/layer2_generator/layer2_generator.c:189-281", "src/base/oonf_layer2.c:823-858"]}
{"id": "C239", "title": "TCs are generated while there is something to advertise, and for the hold time after it", "statement": "When the timer for TCs fires, the router sends TCs exactly if it was a multipoint relay or had attached networks at one of the last advertisement_hold_time_factor + 1 firings (this one included), or if there were not more than advertisement_hold_time_factor firings since the start: one for each address family with an originator, with the interval and validity in force (the override if there is one, otherwise the configuration). So exactly advertisement_hold_time_factor TCs follow the last one with something to advertise. After the start of the shutdown nothing is sent. The setters return what they replace. Switching the generation off stops TCs until it is switched on again; TCs are sent with the interval they announce. (Counterexamples: any change of the configuration switches the generation on again, because olsrv2_generate_tcs does not store its argument; olsrv2_set_tc_interval does not touch the running timer, so the announced interval is not the real one.)", "quantifier": "for all sequences of firings (fewer than 2^64), configuration changes, switches and overrides", "why_tests_cant": "needs long runs with changes of the role of the router, mixed with changes of configuration and overrides; nothing tests olsrv2.c", "anchors": ["src/olsrv2/olsrv2/olsrv2.c:343-359", "src/olsrv2/olsrv2/olsrv2.c:527-576", "src/olsrv2/olsrv2/olsrv2.c:696-710", "src/olsrv2/olsrv2/olsrv2_writer.c:158-212"]}
{"id": "C240", "title": "Hexadecimal dumps lose nothing and are text", "statement": "abuf_hexdump writes one line for each 32 bytes begun: the prefix, the offset of the line in at least four hexadecimal digits, a colon, each byte as two hexadecimal digits in a fixed column (blank where the buffer has ended), then one character for each byte, the byte itself if it is printable ASCII and a dot otherwise. So different buffers have different dumps, and whatever the bytes are, the dump holds only printable characters and the newlines at the ends of its lines, besides the prefix.", "quantifier": "for all buffers of any length and all prefixes (without newline for the number of lines)", "why_tests_cant": "buffers come from received packets and can have any content and length; the dump is only looked at by people", "anchors": ["src/libcommon/autobuf.c:309-360"]}
{"id": "C241", "title": "The info commands show the subcommand that is asked for", "statement": "The parameter of an info command (nhdpinfo, olsrv2info, layer2info, systeminfo) is an optional format (head, json, raw, jsonraw, data, dataraw), a subcommand and a custom template, in words separated by blanks, without regard to case. The first subcommand with this name is shown, with the settings of the format and with the custom template unless the output is JSON; a headline does not call the subcommand. Unknown subcommands and formats without subcommand show nothing and are reported. The command ends with an internal error exactly if the subcommand that is shown reports a failure. A missing parameter is reported once. The help lists the subcommands, or the keys of the one that is named. (Counterexamples: a missing parameter is reported twice, the second time with NULL for %s; the help does not know a subcommand in another letter case or with a blank behind it, although it can be called.)", "quantifier": "for all parameters, all lists of subcommands and all results of their callbacks", "why_tests_cant": "arbitrary text typed by the user, with blanks and letter cases in any combination; nothing tests the viewer", "anchors": ["src/base/oonf_viewer.c:109-135", "src/base/oonf_viewer.c:179-349", "include/oonf/base/oonf_viewer.h:60-79"]}
{"id": "C242", "title": "The command netjsoninfo prints what its words ask for", "statement": "Without the filter, netjsoninfo prints a collection with one part for each of the words graph, route and domain of its parameter, in their order, in any letter case, and one error at the end exactly if some word is unknown. With the filter it prints one graph or one list of routes, with the remaining words as filter, and an error for everything else. Without parameter it prints nothing. It ends for every parameter. (Counterexample: a parameter of blanks is an error although no word is unknown.)", "quantifier": "for all parameters", "why_tests_cant": "arbitrary text typed by the user; the loop over the words could run forever for a text nobody tried", "anchors": ["src/olsrv2/netjsoninfo/netjsoninfo.c:930-1014"]}
