# Formal model of OLSR/OONF: design

## Approach

The C code in `/repo` is modelled function by function as small total Lean 4
functions.  Each definition cites the file and lines it models and says where it
simplifies.  Undefined behaviour (out-of-bounds access, division by zero, use
after free, null dereference) is a distinct outcome of the model (an `Except`-like
error constructor), it is never assumed away.  Every area has three files or
sections: the *model* (what the code does), a short independent *specification*
(what the English property says) and the *theorems* relating both.

* Model files:   `lean/Verif/<Area>/Model.lean` (large areas have several, listed below)
* Specification: `lean/Verif/<Area>/Spec.lean` or the beginning of the property file
* Helper lemmas: the other files of the area
* Property theorems: `lean/Verif/<Area>/Props.lean` (or `*Props.lean`), each with an
  `example` showing that the hypotheses are met by a non-trivial concrete case.

When a property is false of the code, the property file contains a theorem
`..._counterexample` proving the negation with a concrete witness and a theorem
with suffix `_partial` proving the property under the weakest hypothesis found;
the disagreement is listed in the section "Findings" below.

## Trusted base

* Lean 4.33.0 kernel; theorems depend at most on `propext`, `Classical.choice`
  and `Quot.sound` (checked with `#print axioms`).  No axiom is added, no
  `native_decide`.
* The reading of the C code: the code was not compiled or run; the tie between
  model and code is the citation on each definition.
* C semantics assumed by the model: two's complement, 8-bit bytes, LP64
  (`size_t` 64 bit, `int` 32 bit), unsigned wrap-around, conversion of out of
  range values to signed types by wrapping (as gcc/clang do).
* `malloc`/`calloc`/`realloc` never fail unless the model says so (they may fail in
  `Autobuf`, `Class`, `Reader`, `Tc`).
* libc functions (`memcpy`, `memcmp`, `strlen`, ...) behave as specified by POSIX.
  The only library function with a hypothesis of its own is the IPv6 text
  conversion: `Inet6.Sound` (NetText/Props.lean) says that `inet_pton` reads what
  `inet_ntop` printed and that the printed text contains only hex digits, `:` and
  `.`.  It is a hypothesis of the C21 theorems and is met by a concrete
  instance in an `example`.
* Pointers are represented by object numbers (Tc, Nhdp, Timer, Class) or positions
  in lists (Mpr, Routing, Writer).  An access to an object which does not exist any
  more is an explicit failure of the model.  AVL trees are modelled in full in `Avl`
  (with parent pointers as the frames of a zipper: that `parent` inverts
  `left`/`right` is built in); the other areas use lists or finite maps with the
  interface proved in C23.
* Kernel of the operating system (Routing/Kernel.lean): one route for each key, a
  request takes effect when it is answered without error.

## What is modelled

| area | source in `/repo/src` | modelled | left out |
|------|-----------------------|----------|----------|
| Codec | `librfc5444/rfc5444.c`, `.h` inline functions | time TLV, metric, sequence numbers | |
| DupSet | `base/oonf_duplicate_set.c` | all of the entry logic and the set | logging, class/timer calls (an expiry is an event) |
| Bits | `libcommon/bitmap256.c`, `bitstream.c` | all functions | |
| Str | `libcommon/string.c` | hex, string arrays, words, bounded copy | `str_is_printable`, trimming helpers |
| Json | `libcommon/json.c` | all functions | |
| Autobuf | `libcommon/autobuf.c` | growth, puts, memcpy, prepend, print, pull, hexdump | `strftime` |
| Template | `libcommon/template.c` | init and print | |
| IsoNum | `libcommon/isonumber.c` | parsing and printing | |
| Netaddr, NetText | `libcommon/netaddr.c`, `avl_comp.c` | binary, socket and text form, comparison, subnets, truncation | multicast mapping, `get_hash` helpers |
| Acl | `libcommon/netaddr_acl.c` | configuration, decision, copy | failed allocations |
| Avl | `libcommon/avl.c` | all functions | |
| Timer | `base/oonf_timer.c` | start, stop, set, walk with arbitrary callbacks | statistics, logging |
| Class | `base/oonf_class.c` | classes, extensions, allocation, free list | events, key strings |
| Reader | `librfc5444/rfc5444_reader.c` | whole parser and consumer scheduling, arbitrary callbacks | `copy_value`, stale `single_value` |
| Writer | `librfc5444/rfc5444_tlv_writer.c`, `rfc5444_msg_generator.c`, `rfc5444_pkt_generator.c` | TLVs, address compression, address blocks, fragments, packets of one target, forwarding | postprocessors, several targets; TLV type objects are identified with type and extension |
| Routing | `olsrv2/olsrv2/olsrv2_routing.c` | Dijkstra run, route table, filters, kernel queue, for one domain | `os_routing_interrupt`, logging |
| Mpr | `nhdp/mpr/*.c` | both neighbor graphs and the selection | caches, debug self test |
| Tc | `olsrv2/olsrv2/olsrv2_tc.c`, `olsrv2_reader.c` | all database operations, TC processing | `interval_time`, source specific flags |
| Olsr | `olsrv2_originator.c`, `olsrv2.c`, `olsrv2_lan.c`, `olsrv2_writer.c`, `olsrv2_reader.c` | originator choice and memory, forwarding decision, attached networks, content of TCs | configuration callbacks, TC scheduling |
| Domain | `nhdp/nhdp/nhdp_domain.c` | MPR and willingness TLVs, neighbor metrics, MPR memory | listeners, text output of metrics |
| Nhdp | `nhdp/nhdp/nhdp_db.c`, `nhdp_reader.c` | objects and references, HELLO processing, link status, expiry | hysteresis, hold times, domain data |
| Layer2 | `base/oonf_layer2.c`, `.h` | metrics, originators, neighbors, addresses, destinations, indexes, queries, link ids, key text | next hops, time stamps, paths, value text, events |
| Metric | `nhdp/hysteresis_olsrv1/*.c`, `nhdp/ff_dat_metric/*.c` | hysteresis update and timers; packet window, median speed, loss, airtime, shaping | layer-2 lookup, values written to layer 2, text output |
| Hello | `nhdp/nhdp/nhdp_writer.c`, `nhdp_reader.c`, `nhdp_db.c`, `nhdp_domain.c` | metric TLVs, LINK_STATUS and OTHER_NEIGHB TLVs, link timers, system of two routers | message header, local interface addresses, MPR TLVs (see Domain) |
| Subsys | `libcore/oonf_subsystem.c`, `generic/plugin_controller/plugin_controller.c` | plugin tree, start, stop, unloading, library names, telnet command | `dlopen` and the callbacks themselves (parameters, may fail at any time), early configuration |
| Cfg | `libconfig/cfg_db.c`, `cfg_schema.c`, `cfg_cmd.c`, `generic/cfg_compact/cfg_compact.c`, `libcore/oonf_cfg.c` | database, validation, change notification, command syntax, file format, apply and rollback | messages, file access, validators of entries (arbitrary functions) |
| CfgBin | `libconfig/cfg_validate.c`, `cfg_tobin.c`, `cfg_schema.c`, `cfg.c` | validators and binary converters of all entry types, message lines | layout of the target structures (one target per entry), help texts |
| TwoHop | `nhdp/nhdp/nhdp_reader.c`, `nhdp_db.c`, `nhdp_db.h`, `olsrv2_routing.c` | two-hop addresses of links, their timers, their use in routing | metrics of the two-hop addresses |
| Http | `base/oonf_http.c`, `base/oonf_stream_socket.c` | header parser, URI decoding, query strings, site lookup, access control, file and telnet bridge, arrival in pieces | text of answers, file transfer, the telnet commands themselves, end of the connection; `sscanf` of odd escapes is a parameter |
| Icv | `crypto/rfc5444_signature.c`, `crypto/rfc7182_provider.c`, `crypto/sharedkey_sig.c` | check of incoming and creation of outgoing signatures, removal of ICV TLVs, default validation, key-id check, registry of algorithms | hash and encryption functions (arbitrary functions), configuration of shared keys, `getSignSize` of missing functions, the target passed by the message generator |
| Replay | `crypto/simple_security.c` | timestamp, query and response TLVs, neighbor nodes, counter, both timers | key handling, lack of memory, granularity of timers; signatures are area Icv (in the two-node world packets cannot be forged) |
| Dlep | `generic/dlep/dlep_session.c`, `dlep_writer.c`, `dlep_reader.c`, `ext_base_proto/proto.c`, tables of all extensions | TLV parser, framing, restriction and end of sessions, signals, values of TLVs, rules and negotiation of extensions, announcement of addresses, discovery, link ids | text output, timers (expiry is an event), handlers of the extensions where they are arbitrary functions |
| NhdpIf | `nhdp/nhdp/nhdp_interfaces.c`, `_forwarding_selector` of `nhdp.c` | families used for flooding, interface addresses with their hold timers, reference counts, links of removed interfaces | HELLO timer, local socket addresses, times of recalculation of the flooding decision; the filter is a function (C22) |
| Rfc5444 | `base/oonf_rfc5444.c`, packet side of `librfc5444/rfc5444_pkt_generator.c` and `rfc5444_msg_generator.c` | reference counts, packet and message numbers, aggregation of one target, configuration of interfaces | text output, filters of received packets, packet TLVs and postprocessors, failing allocations; timers fire exactly in time (C26-C28 have the real ones) |
| Stream | `base/oonf_stream_socket.c`, bind address of `base/os_generic/os_interface_generic.c` | event handler and life of a session (all callbacks and system call results as inputs), sessions of a socket and its removal, configuration of a service | failing allocations and `set_nonblocking` of new sessions, list pointers after reinitialisation (one flag), users freeing the socket in `cleanup_socket`, the interface listener |
| Telnet | `base/oonf_telnet.c` | sessions as histories of input blocks, closing, timer ticks, stop calls; line editing, chains, access lists, help, echo, timeout, repeat; execution without connection | output as a list of kinds of text; other commands are given by a world sequence (output, result, whether they go on) and by whether they look for a running command; the stream socket below (C152-C155); configuration of the port |
| Log | `libcore/oonf_logging.c`, `libcore/oonf_logging_cfg.c`, `generic/remotecontrol/remotecontrol.c` | masks, handlers, delivery with nested messages, counters, configuration, sources; `log add/remove`, `route` | texts (a number), growth of the text buffer, `abort` after assertions, failing allocations, `config` (C102-C109); addresses, numbers and interfaces of `route` are functions |
| Packet | `base/oonf_packet_socket.c`, parts of `base/os_linux/os_fd_linux.c`, `os_interface_linux.c` | backlog as bytes, write and read events, pairs of managed sockets, interface listener, limit of EPERM warnings, sending through managed sockets | failing allocations, callbacks that remove the socket, failures of DSCP and of joining groups; choice of the bind address (C155); the kernel socket is a record of the options it was given |
| Import | `olsrv2/lan_import/lan_import.c`, `olsrv2/route_modifier/route_modifier.c`, `olsrv2/olsrv2_l2import/olsrv2_l2import.c` | sections and their trees, selection of routes, attached networks (on top of C53), metric aging, changes of routes, addresses of layer-2 neighbors | conversion of the configuration (C110-C113), query of existing routes (further events), warnings; the time of the aging timer (its firing is an event) |
| Ll4 | `nhdp/auto_ll4/auto_ll4.c` | hash, default address, collisions with neighbors, scan of the addresses of the interface, search for a free address, requests to the kernel and their answers, timer, configuration, removal | one interface; reference counts (C146); IPv4 hash of `char` for signed and unsigned as a parameter; the neighbors, addresses and random numbers an update sees are arbitrary |
| Netlink | `base/os_linux/os_system_linux.c` | attributes, framing, queue of messages, sending, answers, timer | the socket and the answers of the kernel are arbitrary events; messages in the queue are their number and length; the client is an arbitrary state machine that answers a call with new messages; truncated datagrams; `cb_message` |
| OsIf | `base/os_linux/os_interface_linux.c` | messages about addresses, shortcuts, queries of links and addresses (as client of Netlink), listeners and their timer, answers to requests, mesh settings | the answers of `if_indextoname`, of handlers and of the kernel are arbitrary; proc files are single characters and can always be read and written; IPv6 is supported, the kernel newer than 2.6.31; memory does not run out; ioctl calls |
| RtNl | `base/os_linux/os_routing_linux.c` | messages for routes as bytes, parser, filters, waiting requests and timeouts, notifications | metrics as 32 bit patterns; header of the message apart; sequence numbers do not wrap around; callbacks are lists of new requests and interrupts |
| L2Export | `generic/layer2_export/layer2_export.c` | life cycle of the routes for one address, sections, patterns | one routing key; the kernel answers requests in order; effect of requests by metric, table, gateway |
| DlepDest | `dlep/ext_base_proto/proto_radio.c`, `proto_router.c`, local neighbors of `dlep_session.c`, `radio/dlep_radio_session.c`, `router/dlep_router_session.c`, outgoing sockets of `oonf_stream_socket.c` | destinations of radio and router, peer offers, descriptors of connections | one interface; messages are type and destination; memory is not exhausted; values of metrics are only present or not |
| Sched | `oonf_socket.c`, `os_fd_linux.c`, `os_fd_linux.h`, `mainloop` of `oonf_main.c` | events and their handlers, interest of the kernel, rounds of the scheduler, main loop | the kernel, the handlers and the clock are arbitrary parameters; reading and applying the configuration succeed or fail |
| Probing | `neighbor_probing.c` | choice of the link that is probed, times, address | links are a list in the order of the loops; the frame counter is observed; sending of the packet is only its address |
| OldLan | `old_lan.c`, `olsrv2_lan/olsrv2_lan.c` | parameters of attached networks, changes of the configuration, domains | words are given as option and result of `strtoul`; prefixes are numbers; attached networks as a map of prefix and domain |
| LinkCfg | `link_config.c`, `oonf_layer2.c` (set, relabel, cleanup) | configured link data: parsing, delayed update | interfaces, addresses and values are numbers; words are parsed already; destinations exist when needed |
| ConstMetric | `constant_metric.c` | configuration and choice of link costs, when they are applied | names and addresses are numbers; lost objects are not modelled |
| NhdpCheck | `nhdpcheck.c`, consumer dispatch of `rfc5444_reader.c` | the checks of HELLO messages | only type, length and first byte of TLVs |
| L2Import | `layer2_import.c` | events of routes, filters, the entries of the imports, configuration | interfaces, addresses and names are numbers; names of more than 15 characters (which collide) are not modelled |
| L2Config | `layer2_config.c`, `oonf_layer2.c` (set, relabel, remove), `avl.c` (trees of two nodes) | configured data of one network, telnet commands, the tree of interfaces | indexes, keys and addresses are numbers; neighbor objects, events and the delay itself are left out |
| Nl80211 | `nl80211_listener` (all but the parsing of attributes, the tables of rates and the multicast neighbor), `oonf_layer2.c` (set, cleanup, relabel) | numbers, the database after a series of queries, the order of queries, the set of interfaces | interfaces, stations and indexes are numbers; the tables of rates are parameters; stations without any value are left out |
| WReg | `rfc5444_writer.c` (all but the targets), lookup of `rfc5444_msg_generator.c` | registration of messages, TLV types and content providers, life of message objects, addresses and TLVs of a message | objects, addresses and types are numbers; memory does not run out |
| DomReg | `nhdp_domain.c` (algorithms of domains, recalculation of MPR sets) | registration, choice and activation of metrics and MPR algorithms, marks and events of recalculations | names are numbers in the order of the tree; algorithms are functions; names fit into their buffers |
| OsTun | `eth_listener.c` (timer callback), `os_tunnel_linux.c`, `os_vif_linux.c` | link speeds in the layer2 database, tunnels of the kernel and the tree of added tunnels, open and close of virtual interfaces | the kernel is the environment: answers of `ethtool`, list of tunnels found by name or key (`EEXIST`), permission and accepted protocols per device; TTL, TOS, flow labels and interface indices of tunnels left out |
| RtSched | `olsrv2_routing.c` (flags `_domain_changed`, `_update_ansn`, `_trigger_dijkstra`, `_freeze_routes`, timer `_rate_limit_timer`) | when shortest paths are recalculated, value of the ANSN | the recalculation itself (C40-C42, C54), jitter (the timer has none), wrap of the clock; that a domain which is not in the list never occurs |
| CfgIo | `cfg_io.c` (`_find_io`), `cfg.c` (`avl_comp_cfgio`), `os_clock_linux.c`, `oonf_clock.c` (`oonf_clock_update`) | handler and parameter of a configuration URL; milliseconds and nanoseconds returned | what handlers do; balance of the tree (C23-C25); failing system calls |
| KernVer | `os_system_linux.c` (`os_system_linux_is_minimal_kernel`), `os_routing_linux.c` (`os_routing_linux_supports_source_specific`) | comparison of the running kernel with a required version | `strtol` of the C locale on a text of characters; warnings are left out |
| L2Gen | `layer2_generator.c` (`_cb_l2gen_event`, `_cb_config_changed`) | neighbors made by the generator, counter | tree as binary tree with arbitrary balancing that keeps the order; the values, which are all the counter, are left out; nobody else uses the interface |
| TcGen | `olsrv2.c` (`olsrv2_generate_tcs`, `olsrv2_set_tc_interval`, `olsrv2_set_tc_validity`, the getters, `_cb_generate_tc`, `_cb_cfg_olsrv2_changed`), `olsrv2_writer.c` (`olsrv2_writer_send_tc`, `_send_tc`, `olsrv2_writer_cleanup`) | when TCs are generated, with which times | timer as its period, without jitter and the time of the next firing; whether the router is multipoint relay, has attached networks and originators is input |
| Viewer | `oonf_viewer.c` (`oonf_viewer_call_subcommands`, `oonf_viewer_telnet_handler`, the format in `oonf_viewer_output_prepare`, `oonf_viewer_print_help`, `oonf_viewer_telnet_help`) | choice of format and subcommand, messages and result, which help is shown | what the subcommands print (Template, Json); the help texts |
| Netjson | `netjsoninfo.c` (`_cb_netjsoninfo`, `_handle_collection`, `_handle_filter`, `_handle_netjson_object`) | which parts are printed for which parameter, end of the loop | the content of the parts; memory does not run out |

Not modelled: the rest of `nhdp_writer.c`, the rest of the sockets, the rest of DLEP, the output of the info plugins (`nhdpinfo`, `olsrv2info`, `layer2info`, `netjsoninfo`,
`systeminfo`), `rfc5444_print`, the UCI loader, the hash libraries,
operating system specific code.

## Plan per property

| id | modelled | method |
|----|----------|--------|
| C01, C02 | `rfc5444_timetlv_encode/decode` | arithmetic on Nat/UInt64; case analysis on exponent, full table for the 256 codes lifted by lemmas |
| C03 | `rfc5444_timetlv_get_from_vector` | list recursion, specification as first matching pair |
| C04 | `rfc5444_metric_encode/decode` | as C01, table of 4096 codes |
| C05 | `rfc5444_seqno_*` | BitVec 16 / modular arithmetic |
| C06-C08 | `oonf_duplicate_set.c` | refinement to set of accepted numbers, invariant over histories |
| C09 | `bitmap256` | array of 8 32-bit words, refinement to `Nat -> Bool` |
| C10 | `bitstream.c` | byte buffer model, refinement to bit list |
| C11 | hex functions of `string.c` | round trip by induction |
| C12 | `json.c` | escape/unescape round trip by induction; call-sequence grammar |
| C13 | `strarray_*` | byte layout refined to `List String` |
| C14 | `autobuf.c` | invariant + refinement to byte list |
| C15 | `template.c` | refinement of index table to a scanner specification |
| C16 | `isonumber.c` | exact rational specification, overflow witnesses |
| C17-C21 | `netaddr.c` | bytes/bits lemmas; string model for the textual part |
| C22 | `netaddr_acl.c` | decision logic stated outright |
| C23-C25 | `avl.c` | functional tree with the balance field, zipper for the parent walk; refinement to sorted list |
| C26-C28 | `oonf_timer.c` | scheduler state machine with arbitrary callbacks |
| C29, C30 | `oonf_class.c` | invariant over operation sequences |
| C31-C34 | `rfc5444_reader.c` | parser with explicit fault outcome |
| C35-C39 | `rfc5444_*writer.c`, generators | encoder model, round trip with reader model |
| C40, C41 | `olsrv2_routing.c` Dijkstra core | loop invariant, comparison with path minimum |
| C42, C54 | kernel queue and filter logic | state machine |
| C43, C44 | `mpr/*` | coverage invariant of the selection loop |
| C45, C46 | `olsrv2_tc.c`, `olsrv2_reader.c` | database invariant over operation sequences |
| C47, C48 | `olsrv2.c`, `olsrv2_originator.c` | decision logic, histories |
| C49-C52 | `nhdp_db.c`, `nhdp_reader.c` | decision table, counter invariant, object-id heap with dangling outcome |
| C53 | `olsrv2_lan.c` | fold specification |
| C55, C56 | words and bounded copy of `string.c` | list recursion against a splitting specification |
| C57 | number printing of `isonumber.c` | exact rational specification |
| C58 | binary and socket conversion of `netaddr.c` | round trip |
| C59 | bookkeeping of `oonf_timer.c` | invariant over histories |
| C60, C61 | address TLVs and whole messages of the writer | round trip through the reader model |
| C62 | TC processing as a whole | refinement of the database to the content of the last TC |
| C63 | `olsrv2_writer.c` to `olsrv2_reader.c` to `olsrv2_tc.c` | composition of both models |
| C64 | MPR and willingness TLVs of `nhdp_domain.c` | round trip over arbitrary domain lists |
| C65, C66 | neighbor metric and MPR memory of `nhdp_domain.c` | fold specification, histories |
| C67, C68, C77 | values of `oonf_layer2.c` | histories of writes, exact arithmetic, decision table |
| C69-C74, C78, C79 | objects of `oonf_layer2.c` | database as a set of facts, invariant over operation sequences |
| C75, C76 | neighbor keys of `oonf_layer2.c` | counting over request sequences, round trip through the `Str` and `NetText` models |
| C80, C81 | `hysteresis_olsrv1.c` | induction over event histories, convergence bounds in exact arithmetic |
| C82-C84 | packet counters of `ff_dat_metric.c` | refinement of the ring buffer to an unbounded history |
| C85-C90 | metric calculation of `ff_dat_metric.c` | order statistics, exact arithmetic with explicit overflow, composition with the `Codec` model |
| C91 | metric TLVs, `nhdp_writer.c` to `nhdp_domain.c` | loop invariants, permutations, composition with the `Codec` model |
| C92 | address TLVs, `nhdp_writer.c` to `nhdp_reader.c` | decision table over the reachable databases of the `Nhdp` model |
| C93 | link timers of `nhdp_reader.c`, `nhdp_db.c` | invariant over runs |
| C94 | two routers exchanging HELLOs | invariant over executions with an adversarial network |
| C95, C96, C98-C100 | `oonf_subsystem.c` | invariant over operation sequences: initialized plugins form a list ordered by dependency; recursion bounded by the marks |
| C97 | `oonf_subsystem_extract_name` | list functions, unsigned 64 bit arithmetic |
| C101 | telnet command of `plugin_controller.c` | decision logic, uses the `Str` model |
| C102-C104 | `cfg_db.c` | refinement to a map with case insensitive keys, invariant over operation sequences |
| C105, C106 | `cfg_schema_validate` | comparison with a declarative validity predicate, for arbitrary validators; access to freed entries is an outcome |
| C107 | `_handle_db_changes` | calls for each section against the difference of the values looked up |
| C108 | `cfg_compact.c` | line grammar, round trip; access behind the buffer is an outcome |
| C109 | `cfg_cmd.c` | grammar of arguments against a printer, effect on the database of C102 |
| C110, C111 | `cfg_validate.c`, `cfg_tobin.c` | validator and converter of the same entry are compared, value read off the text by a separate specification |
| C112 | `cfg_validate_tokens`, `cfg_tobin_tokens` | words as in C55; use of memory behind the array of entries is an outcome |
| C113 | `cfg_append_printable_line` | on the buffer of C14; use of memory before `realloc` is an outcome |
| C114 | `oonf_cfg_apply`, `oonf_cfg_rollback`, `oonf_cfg_clear_rawdb`, commit in the main loop | invariant over all sequences of commands on top of C102-C107; plugin loading and conversion of the global section are arbitrary functions |
| C115 | `_cb_addr_pass2_block`, `_process_domainspecific_2hopdata`, removal of lost addresses, `nhdp_db_link_update_status`, two-hop timers | equivalence with a specification over the event history, by induction over it; the computed link status and the lost addresses are inputs (C49-C52, C94) |
| C116 | `nhdp_db_2hop_is_lost` together with `_handle_nhdp_routes` | C115 combined with C40: general counterexample for all histories with validity times |
| C117 | `oonf_subsystem_load`, `oonf_cfg_load_subsystem`, `oonf_subsystem_unload`, `oonf_subsystem_initiate_unload` | on the model of C95-C100, invariant over all operations |
| C118 | `_parse_http_header` | buffer as byte list, offsets as pointers; round trip with an independent rendering by induction over tokens and fields; in-bounds by lengths |
| C119 | `_decode_uri`, preparation of the URI | inductive relation of all encodings |
| C120 | `_parse_query_string`, `oonf_http_lookup_value` | round trip with joined texts; end to end for GET |
| C121 | `_get_site_handler` | sorted list as tree; texts between a prefix and its extension have the prefix |
| C122 | `_cb_receive_data`, `_auth_okay` | inversion over the decision logic for arbitrary input |
| C123 | `_cb_file_handler` | general counterexample for every path, partial theorem |
| C124, C125 | `_cb_receive_data` with `_cb_parse_connection` | session as recursion over arriving blocks |
| C126 | `_cb_telnet_handler` | induction over the commands, commands as function of what was executed before |
| C127 | `_cb_signature_tlv`, `_remove_signature_data`, `_cb_validate_by_sign` | memory as byte list, reads and writes outside as outcomes; removal proved equal to the encoding of the message without ICV TLVs by induction over the TLVs; then induction over TLVs and signatures |
| C128 | `_cb_add_signature` with the above | signing proved to insert a TLV into the encoded message; composition with C127's lemmas |
| C129 | signed data of both sides | encoding of TLVs, messages and packets proved injective |
| C130 | as C127 | outcome of the check is never a fault under the conditions; concrete and general counterexamples |
| C131 | `_cb_add_signature`, `_handle_postprocessor` | lengths of the encodings |
| C132 | rfc7182_add_*/remove_*, listeners | invariant over sequences of operations |
| C133 | `_cb_timestamp_tlv`, `_cb_addPacketTLVs`, `_cb_finishPacketTLVs` | two parties and the set of all sent packets; invariant relating counters, pending query, last timestamp and processed timestamps |
| C134 | as C133 | decision by cases; handshake by composing four steps from arbitrary states |
| C135 | as C133 with `_cb_neighbor_node_timeout`, `_cb_query_trigger` | transition relation with deadlines, invariant trigger < validity |
| C136 | `_parse_tlvstream`, `dlep_parser_get_*` | loop invariant: linked chains of value indices equal the positions of the items read so far |
| C137 | `dlep_session_process_buffer`, `_process_tcp`, `_process_signal`, `_cb_receive` | unique decomposition into frames; induction over the blocks |
| C138 | `dlep_session_process_signal`, `dlep_session_terminate`, termination and heartbeat handlers | decision by cases, induction over the messages |
| C139 | `dlep_writer_start_signal`, `_add_tlv`, `_finish_signal` | lengths and slices; composition with C136 and C137 |
| C140 | all functions of `dlep_writer.c` and `dlep_reader.c` for one TLV | round trip per TLV, numbers by induction over the bytes |
| C141 | `_process_tlvs`, `_handle_extension`, `_check_mandatory`, `_check_duplicate`, `_call_extension_processing` | the linked chains of C136 characterise missing and double TLVs; induction over the extensions |
| C142 | `dlep_session_update_extensions`, `_update_allowed_tlvs`, the tables of all extensions | loop invariant of the table; the daemon's own tables by evaluation |
| C143 | `ext_base_ip/ip.c`, `oonf_layer2_net_add_ip`, `_remove_ip` | events per address; composition with C140; induction over the updates |
| C144 | `_cb_receive_udp`, `_cb_send_multicast`, `_cb_create_peer_discovery` | decision by cases, induction over the ticks |
| C145 | `nhdp_interface_update_status`, `_forwarding_selector` | counters equivalent to existence of links, decision by cases |
| C146 | `_cb_interface_event`, `_addr_add`, `_addr_has_been_removed`, `_remove_addr`, `nhdp_interface_apply_settings` | view of one address through all loops, equivalence with a specification over the event history, by induction over it |
| C147 | `nhdp_interface_add`, `nhdp_interface_remove`, `nhdp_db_link_add`, `nhdp_db_link_remove` | invariant over histories; interfaces of the same name are distinguished by a generation |
| C148 | `oonf_rfc5444_add_protocol`, `remove_protocol`, `add_interface`, `remove_interface`, `add_target`, `remove_target`, `_cb_interface_changed` | heap with identities, invariant over histories; counterexamples |
| C149 | `_cb_add_seqno`, `_rfc5444_writer_begin_packet`, `oonf_rfc5444_get_next_message_seqno`, `oonf_rfc5444_add_interface` | invariant over histories, duplicate set model for receivers; counterexamples |
| C150 | `_cb_msggen_notifier`, `_cb_aggregation_event`, `rfc5444_writer_flush`, `rfc5444_writer_create_message`, `rfc5444_writer_forward_msg` | invariants over histories; counterexamples |
| C151 | `oonf_rfc5444_reconfigure_protocol`, `oonf_rfc5444_reconfigure_interface`, `_cb_cfg_interface_changed` | stored configuration related to the latest one; counterexamples |
| C152 | `_create_session`, `_stream_close` | invariant over histories; counterexample by induction for every limit and excess |
| C153 | `_cb_parse_connection`, `_cb_timeout_handler`, `oonf_stream_flush`, `oonf_stream_close` | per stage lemmas composed over the stages and histories; counterexamples |
| C154 | `oonf_stream_add`, `oonf_stream_remove`, `oonf_stream_close_all_sessions` | invariant over histories (each session in the list or closed once); counterexamples |
| C155 | `_apply_managed_socket`, `_apply_managed`, `oonf_stream_apply_managed`, `_cb_parse_request`, `os_interface_generic_get_bindaddress` | decision logic on top of C22 (access lists); invariant over configurations for the counterexample |
| C156 | `_cb_telnet_receive_data`, `_telnet_handle_command` | refinement to `requests` of the whole input, induction over histories |
| C157 | the loop of `_cb_telnet_receive_data` with fuel | termination measure; counterexample for all fuels |
| C158 | `_cb_telnet_repeat`, `_call_stop_handler`, `oonf_telnet_stop`, `oonf_telnet_execute` | invariant over histories with an inductive order of events |
| C159 | `_check_telnet_command_acl` and all its callers | invariant over histories |
| C160 | output of `_cb_telnet_receive_data` | output as list, induction over the loop |
| C161 | `_avl_comp_strcmdword` | induction over texts, reads as part of the result |
| C162 | `_cb_telnet_timeout`, `_cb_telnet_init` | arithmetic, invariant over histories |
| C163 | `oonf_log_updatemask`, `oonf_log`, `_cb_print_log` | table of all bytes and severities, invariant over histories; recursion with fuel, counterexample for all fuels |
| C164 | `oonf_logcfg_apply`, `_apply_log_setting` | induction over lists, decision table |
| C165 | `_update_logfilter` on top of C55 (words) | refinement to word lists, induction |
| C166 | `oonf_log_register_source` | invariant over histories |
| C167 | `_cb_handle_route` on top of C55 | refinement to a grammar of parameters, induction |
| C168 | `oonf_packet_send`, write part of `_cb_packet_event` | refinement of the byte buffer to a list of datagrams, interleaving of sent and failed ones |
| C169 | read part of `_cb_packet_event` | outright; counterexamples |
| C170 | `oonf_packet_apply_managed`, `_apply_managed_socketpair`, `_apply_managed_socket` | outright for all previous states; recursion through the notification with fuel, counterexamples for all fuels |
| C171 | `_handle_errno1` | invariant over the warnings of the current and the earlier intervals |
| C172 | `_cb_cfg_changed`, `_get_import`, `_destroy_import` and their copies | refinement of the tree to a finite map over histories of sections |
| C173 | `_cb_rt_event`, `_is_allowed_to_import` on top of C22 | decision logic outright, per section |
| C174 | `_cb_rt_event`, `_add_lan`, `_destroy_lan` | induction over sections and over histories of events |
| C175 | `_cb_metric_aging` | closed form by induction over the number of periods |
| C176 | `_cb_rt_filter` on top of C172 and C22 | first match in an ordered list |
| C177 | `_cb_l2neigh_ip_added`, `_remove_l2neighip_lans`, `_destroy_l2export` | induction over sections; counterexamples |
| C178 | `_calculate_host_part`, `_generate_default_address`, `_is_address_collision` | refinement of the hash to arithmetic on numbers, arithmetic; counterexample |
| C179 | `_cb_update_timer`, `_nhdp_if_has_collision` | case analysis of an update (`Upd`), invariant over histories, induction over the rounds of the loop; counterexamples |
| C180 | `_get_current_if_ipv4_addresscount`, `_cb_update_timer` | induction over addresses, case analysis, invariant over histories; counterexamples |
| C181 | `_cb_update_timer`, `_cb_remove_nhdp_interface`, `_cb_address_finished`, `_cb_if_cfg_changed` | closed loop with a kernel, invariants over histories; counterexamples |
| C182 | `os_system_linux_netlink_addreq`, `os_system_linux_netlink_send`, netlink's own macros for reading | round trip by induction over attributes and messages; counterexample |
| C183 | `_enqueue_netlink_buffer`, `os_system_linux_netlink_send`, `_flush_netlink_buffer` | invariant over histories; counterexample |
| C184 | `_netlink_handler`, `_handle_nl_err`, `_netlink_job_finished` | induction over the messages of a datagram; counterexamples |
| C185 | the same, `_cb_handle_netlink_timeout` | invariant over histories, constructed run; counterexamples |
| C186 | `_address_parse_nlmsg`, `_add_address`, `_remove_address`, `_update_address_shortcuts`, `_cb_rtnetlink_message` | induction over messages, invariant; counterexamples |
| C187 | `_query_interface_links`, `_query_interface_addresses`, `_process_end_of_query`, `_process_bad_end_of_query` | invariant over histories, kernel check of the finite machine; counterexamples on the queue of C183 |
| C188 | `os_interface_linux_add`, `os_interface_linux_trigger_handler`, `_trigger_if_change`, `_cb_delayed_interface_changed` | invariant over histories; counterexamples |
| C189 | `os_interface_linux_add`, `os_interface_linux_remove`, `_init_mesh`, `_refresh_mesh`, `_cleanup_mesh`, `_activate_if_routing`, `_deactivate_if_routing`, `_os_linux_writeToFile`, `_cb_cfg_changed` | invariants over histories; counterexamples |
| C190 | `os_interface_linux_address_set`, `os_interface_linux_address_interrupt`, `_cb_rtnetlink_error`, `_cb_rtnetlink_done`, `_cb_rtnetlink_timeout`, `_address_finished` | induction over histories; counterexample |
| C191 | `os_routing_linux_set`, `_routing_set`, `_routing_parse_nlmsg` | round trip through bytes with C182; counterexamples |
| C192 | `_match_routes`, `os_routing_linux_init_wildcard_route` | equivalence, composed with C191; counterexample |
| C193 | `os_routing_linux_set`, `os_routing_linux_query`, `os_routing_linux_interrupt`, `_routing_finished`, `_cb_rtnetlink_error`, `_cb_rtnetlink_done`, `_cb_rtnetlink_timeout`, `_cleanup` | invariant over histories, induction over the loop; counterexamples |
| C194 | `_cb_rtnetlink_message` | case analysis; counterexamples |
| C195 | `_destroy_route`, `_cb_route_finished`, `_cb_l2neigh_ip_added`, `_cb_l2neigh_ip_removed` | invariant over histories; counterexamples |
| C196 | `_destroy_l2export`, `_cb_cfg_changed` | as C195; counterexamples |
| C197 | `_is_matching_origin`, `_get_l2export` | equivalence with a specification; counterexample |
| C198 | `_radio_process_session_init`, layer2 callbacks of proto_radio.c, `dlep_session_add_local_neighbor` | invariant over all reachable radios; counterexamples, two of them general |
| C199 | `_radio_process_destination_up_ack`, `_down_ack`, the timer of destinations | equations; invariant with a queue of unanswered messages; counterexamples |
| C200 | `_cb_incoming_tcp`, `_cb_tcp_lost`, `_cb_cleanup_radio`, `dlep_session_remove` | equations; counterexample by induction over all later events |
| C201 | `_router_process_destination_up`, `_down`, `_update`, `_cb_cleanup_router`, `oonf_layer2_neigh_remove` | simulation between the messages of C198 and the router; counterexamples |
| C202 | `_router_process_peer_offer` | induction over the lists of connection points; counterexamples for all hosts |
| C203 | `dlep_router_add_session`, `dlep_router_remove_session`, `_cb_tcp_lost`, `oonf_stream_connect_to`, `oonf_stream_remove` | invariant over histories with a table of descriptors; counterexamples for all states |
| C204 | `_handle_scheduling`, `os_fd_linux_event_wait` | induction over the events, for all handlers; counterexamples for all states |
| C205 | `oonf_socket_add`, `oonf_socket_remove`, `oonf_socket_set_read`, `oonf_socket_set_write`, `os_fd_linux_event_socket_modify` | refinement to what was asked for, over all histories; counterexamples |
| C206 | `_handle_scheduling`, `_shall_end_scheduler`, `os_fd_linux_event_wait`, end of `oonf_main` | decision logic, composed with C27 and C59; induction over the rounds of the shutdown |
| C207 | `mainloop`, `oonf_cfg_apply` (flags) | decision logic, induction over the turns; counterexamples |
| C208 | Probing | `probe`, `rounds` | `C208_choice`: the chosen link, by induction over the loop; `C208_sent`, `C208_quiet`, `C208_times`; `C208_fair`: the number of links that waited at least as long decreases each round; counterexample for the address |
| C209 | OldLan | `parse`, `validate` | `C209_values_partial`: last value or default; `C209_validated`: bounds; counterexamples for errno and wrapped numbers |
| C210 | OldLan | `changed` | `C210_change_partial`: the map afterwards against the last line that concerns a key; counterexample for the order of lines |
| C211 | OldLan | `secsChanged` | `C211_sections_partial`: the section that concerns a key last decides; counterexample for exchanged prefixes |
| C212 | LinkCfg | `changed`, `parse` | `C212_stored_partial`, `C212_rest`; counterexamples for values applied again, sections and names mixed up |
| C213 | ConstMetric | `configure`, `cost`, `step` | `C213_config`, `C213_cost` (first entry of the search order), `C213_current_partial` by induction; two counterexamples |
| C214 | NhdpCheck | `passes` | `C214_callbacks`, `C214_passes_partial`, `C214_complete_partial`; counterexamples: addresses are never checked, TLVs of the message are instead |
| C215 | L2Import | `event`, `events`, `one` | `C215_last_partial` by induction over events, `C215_reload_partial`, `C215_filter`; counterexamples for alternative routes, types, missing hardware addresses, routes without interface, stale neighbors |
| C216 | L2Import | `configure` | `C216_removed`, `C216_changed`, `C216_names`; counterexamples: dangling listener, entries of an old filter |
| C217 | L2Config | `configure`, `changed`, `telnet` | `C217_data` against the configured values with priorities, `C217_ip_partial`, `C217_again_partial`; counterexamples for removed sections, radio addresses, destinations, addresses of others, telnet |
| C218 | L2Config | `register`, `find` | `C218_single_partial` by induction; counterexample with two interfaces |
| C219 | Nl80211 | `traffic`, `bitrate`, `maxBitrate`, `ht`, `vht`, `mcRate` | `C219_counter_partial` by induction over readings, `C219_max` (greatest supported rate), `C219_ht`, bounds for the bitrate; counterexamples |
| C220 | Nl80211 | `report`, `finish`, `round` | `C220_reported`, `C220_blocked`, `C220_taken`, `C220_counts`, `C220_neighbors`, `C220_destinations`, `C220_round_partial` against the list of reported values; counterexamples for series without change, objects and destinations |
| C221 | Nl80211 | `getNext`, `skip`, `trigger`, `step` | `C221_series_partial`, `C221_first`: the exact list of messages for any interfaces; counterexamples for the family and removed interfaces |
| C222 | Nl80211 | `configure` | `C222_interfaces`: invariant over configuration histories |
| C223 | WReg | all registrations and removals, `create`, `cleanup` | simulation with the books of the users: `C223_in_use`, `C223_order`, `C223_once`, `C223_cleanup`; counterexamples for unregistered messages and forward handlers |
| C224 | WReg | `addAddress`, `addTlv`, `merged`, `freeAddresses` | refinement to the list of requests: `C224_addresses`, `C224_tlvs`, `C224_accepted`, `C224_next`; counterexample for addresses that become mandatory later |
| C225 | DomReg | `apply`, `addMetric`, `addMpr`, `remove`, `newDom` | invariant over histories (reference counters = users, names and pointers agree): `C225_active_partial`, `C225_configured_partial`, `C225_others`; counterexamples for removal, flooding domain, late registration, wildcard |
| C226 | DomReg | `recalc`, `recalcAll`, `delay` | `C226_sets`, `C226_listeners`, `C226_marked`, `C226_idle` by induction over the domains |
| C227 | OsTun | `ethOne`, `ethEvent`, `setInt` | updates of different interfaces are independent: `C227_speeds`; counterexamples for withdrawn values and unknown speeds |
| C228 | OsTun | `handle`, `addTun`, `removeTun`, `cleanup` | refinement to the set of added objects: `C228_history_partial`, `C228_cleanup_partial`; `C228_refused`, `C228_frame`, `C228_round_trip`, `C228_device_up_partial`, `C228_device_partial`; four counterexamples |
| C229 | OsTun | `vifOpen`, `vifClose` | `C229_vif_partial`; counterexamples for the missing socket pointer and a second open |
| C230 | RtSched | `trigger`, `mark`, `force`, `fire`, `walk`, `setParameter` | invariant that relates flags to the log: `C230_exact`; pending timer followed to its end: `C230_deadline_partial`; `C230_rate_partial`; counterexamples for parameters |
| C231 | RtSched | `announce`, `recalculate`, `step` | relation between number of changes and number of increments, composed over calls: `C231_settled_partial`; counterexamples for TCs before the recalculation and frozen routes |
| C232 | CfgIo | `cmpIo`, `Tree.find`, `findIo` | shortened comparison respects the order of the tree, induction over search trees: `C232_scheme_partial`, `C232_default`, `C232_empty`; counterexamples for prefixes and the empty registry |
| C233 | CfgIo | `wall`, `mono`, `sinceStart` | arithmetic: `C233_monotonic`, `C233_since`; induction over readings: `C233_steps_partial`, `C233_steady_partial`; counterexamples for small steps back |
| C234 | IsoNum | `signedText`, `numberText`, `toU64`, `toS64` | decimal texts by strong induction, then C16 and C57: `C234_unsigned`, `C234_signed`, `C234_minus`, `C234_plus`; counterexample for texts with a prefix |
| C235 | KernVer | `os_system_linux_is_minimal_kernel`, `strtol`, `os_routing_linux_supports_source_specific` | value of digit texts by induction, then outright: `C235_three`, `C235_monotone`, `C235_source_specific`, `C235_unknown`; `C235_two_partial` with counterexample |
| C236 | Packet | `oonf_packet_send_managed`, `oonf_packet_send_managed_multicast`, `oonf_rfc5444_send_target_data`, `oonf_rfc5444_send_interface_data` | outright over all states: `C236_zero`, `C236_one`, `C236_minus`, `C236_results`, `C236_refused`, `C236_multicast`, `C236_blocked`; `C236_rfc5444_partial` with counterexamples |
| C237 | Dlep | `_write_session_init_ack`, `_process_session_init_ack`, `dlep_extension_get_l2_neighbor_key`, `_router_process_destination_up`, `_down`, `_update` | `C237_follow` by induction over the messages, with `C237_key`, `C237_injective`, `C237_announced`; `C237_limit`, `C237_bad`, `C237_unknown`; `C237_length_partial` with counterexamples |
| C238 | L2Gen | `_cb_l2gen_event`, `_cb_config_changed` of layer2_generator.c, search and insertion in the tree of neighbors | invariant of the tree over all runs, balancing as parameter: `C238_counter`, `C238_idle`, `C238_off`, `C238_one_partial`; counterexamples for all balancings |
| C239 | TcGen | `_cb_generate_tc`, `olsrv2_generate_tcs`, overrides, `_cb_cfg_olsrv2_changed`, `olsrv2_writer_send_tc` | counter as function of the history of firings, invariants over all runs: `C239_sends`, `C239_trailing`, `C239_shutdown`, `C239_set`, `C239_restart`, `C239_override`, `C239_failed`, `C239_on`, `C239_positive`, `C239_off_partial`, `C239_period_partial`; counterexamples |
| C240 | Autobuf | `abuf_hexdump`, `_print_hexline` | columns of a line by induction over the cells, then induction over the lines: `C240_injective`, `C240_line`, `C240_columns`, `C240_text` |
| C241 | Viewer | `oonf_viewer_call_subcommands`, `oonf_viewer_telnet_handler` | words of the parameter by C55, induction over the templates: `C241_shows`, `C241_unknown`, `C241_format_only`, `C241_hidden`, `C241_result`, `C241_overview`, `C241_help_partial`; counterexamples for a missing parameter and for the help |
| C242 | Netjson | `_cb_netjsoninfo`, `_handle_collection`, `_handle_filter`, `_handle_netjson_object` | words of the parameter by C55, induction over them: `C242_collection`, `C242_filter`, `C242_nothing`, `C242_ends`, `C242_spec_total`; counterexample for blanks |

All listed properties can be expressed by an executable model; parts that live in
the operating system (real clock, sockets, kernel routing socket) are parameters.

## Findings (code and property disagree)

Each entry was found while proving the property named in brackets.  Where a theorem is
named, the disagreement is proved for the model with a concrete witness.

### Value codecs and utilities

* [C05] `C05_seqno_trichotomy_counterexample`: for numbers at distance 2^15 neither is
  larger, and `seqno_is_smaller` holds in both directions.
* [C08] `C08_query_changes_set_counterexample`: `oonf_duplicate_test` counts
  out-of-window numbers and resets the window like an addition.
* [C10] `C10_write_memcpy_counterexample`: copying bytes into a bit stream does not
  advance the position.
* [C12] `C12_nesting_counterexample`: a template table without values leaves a stray
  comma in JSON output.
* [C14] `C14_terminator_counterexample`, `C14_pull_terminator_counterexample`: `abuf_pull`
  does not re-terminate the content and can shrink the block to the content length; a
  following failed print writes behind the block.
* [C15] `C15_overflow_counterexample`: more than 64 markers overflow the index table.
* [C16] five counterexamples: lost digits of a fraction, silent 64 bit wrap, endless loop
  for a fraction of 64 digits, negative input to the unsigned parser, signed wrap.
* [C20] `C20_subnetmask_counterexample`: every dotted netmask of n bits becomes n-1;
  `C20_create_prefix_counterexample`: binary masks longer than eight bits are miscounted.
* [C21] `C21_uuid_counterexample`: the prefix length of a UUID is not printed (family
  missing in the table of maximum prefix lengths).
* [C13, C22, not covered by a theorem] `strarray_copy` of an empty array leaks the
  destination; copying an ACL to itself empties it.

### Timers and memory classes

* [C26-C28] an interval of 2^64-1 ms (time TLV code 255) wraps and fires at once; a walk
  with such a periodic timer never ends; intervals near 2^64 give the clock value 0, which
  means "stopped"; jitter above 100% underflows.
* [C28, not covered] `timer->class->name` is read at line 283 after the callback may have
  freed the timer.
* [C29] `C29_counterexample`: the 32 bit counter of allocated blocks wraps, then an
  extension is accepted although objects exist.

### RFC 5444 reader and writer

* [C31] three ways to undefined behaviour from the network: division by zero for a
  multivalue TLV over no addresses (530-544), reads behind the end for a single prefix
  length (886), copies behind the address buffer for head/tail lengths that exceed the
  address length (975).  `C31_no_hazard_partial` shows that there are no others.
* [C32] a parse error in one message ends the processing of the packet.
* [C33] `C33_error_masked`: an error of a consumer is lost when its end callback succeeds.
* [C36] more than 255 addresses in a block (count check per candidate level only) and
  neighbouring addresses with the same bytes and different prefix lengths (`acs[16]`).
* [C37] `C37_counterexample_forward`: forwarding copies up to 1472 bytes into
  `_msg_buffer[1225]` (525); `C37_counterexample_reserved`: reserved packet TLV space is
  not considered by the fit check (1503).
* [C39] endless creation of fragments if an optional address does not fit
  (`non_mandatory` is never reset), fragments larger than the maximum (961: cost
  estimate with the wrong sign).
* [C60] `C60_counterexample`: values of several TLVs of one type at an address are mixed up.

### Topology, routing and flooding

* [C40] `C40_split_counterexample`: source specific destinations with more than one
  attachment are not routed in split mode (885); `C40_overflow_counterexample`: 32 bit
  path costs wrap.
* [C42] lost updates, stale kernel routes and permanently blocked entries when a run
  overlaps with unanswered requests (three counterexamples).
* [C43, C44] two links to one originator on an interface hide each other; a neighbor with
  willingness ALWAYS crashes the routing MPR selection (null pointer, 209); an infinite
  two-hop metric on the first link leads to a failed assertion (244).
* [C45] a TC which lists its originator corrupts a tree (self edge), malformed TCs use a
  freed node, TC nodes of former originators leak, owners of endpoints dangle.
* [C46] a malformed TC after an outdated TC changes the database; outdated TCs set the
  validity timer (304 is before the check at 311), so validity time 0 stops it.
* [C47] TCs which fail their TLV constraints are forwarded without any check; a copy from
  a non-selector suppresses the later copy of a selector.
* [C48] the unspecified address counts as own while a family has no originator.
* [C53] distance 0 is used as "not set"; the summary flag is not recomputed on removal.
* [C54] `C54_verdict_counterexample`: the verdict of route filters is ignored (the
  `continue` at 1084-1089 belongs to the inner loop).
* [C62] incomplete TCs remove unlisted edges, incomplete TCs of unknown originators are
  ignored, a TC with unchanged sequence number keeps unlisted edges.
* [C63] domain order, removed domains, domain 0 distances and equal destinations of two
  attached networks are not transported correctly; an unknown incoming metric suppresses
  the outgoing one.

### NHDP

* [C49, C50] `nhdp_db_link_set_unsymmetric` (interface down) decrements the counter of
  symmetric links without changing the status, so it is decremented again;
  `nhdp_db_link_remove` does not decrement it.
* [C51] a neighbor can become its own dual-stack partner; families are not checked.
* [C52] `C52_mixed_counterexample`: a HELLO with addresses of two neighbors frees the
  current link and goes on to use it (nhdp_reader.c:332-338).
* [C64] the content of the MPR_TYPES TLV is ignored (600-621).
* [C65] loss of the last link and a changed incoming metric are not reported as change.
* [C66] the answer to "am I an MPR" stays true after the selecting neighbor is gone.
* [not covered] `nhdp_db_neighbor_join` iterates the addresses of a link with the wrong
  list node (324, never called); metric and MPR handlers are only removed from the first
  domain; `nhdp_domain_encode_willingness_tlvvalue` returns -1 as `size_t`.

### Layer-2 database

* [C67] `oonf_layer2_data_reset` clears the metadata pointer; a later
  `oonf_layer2_data_set` with metadata `NULL` (as in `eth_listener.c:226-227` and
  `ff_dat_metric.c:733`) then runs into its assertion.
* [C68] negative numbers are divided after conversion to `uint64_t`, so reading
  -50 dB in a coarser scale yields a huge positive number.
* [C69, C71] `oonf_layer2_net_remove` ignores `local_peer_ips`: the addresses of a
  removed originator stay, and `oonf_layer2_net_commit` deletes an interface
  that still has addresses of another originator.
* [C74] the "best" matching neighbor address is the one with the shortest prefix.
* [C75] the first byte of the 32-bit link id counter is replaced by the index of
  the originator, so ids repeat after 2^24 generations.
* [C76] `oonf_layer2_neigh_key_from_string` accepts a comma at index 62 and then
  writes 63 bytes into a buffer of 62.
* [C78] interface names of 16 or more characters are stored truncated but looked up
  in full: the object is never found, and a second add returns an object that is
  not part of the tree.

### Link hysteresis and DAT metric

* [C81] validation accepts 1.0 as threshold for acceptance, but the quality must be
  larger than the threshold: no link ever becomes usable.
* [C81] aging rounds up, so a quality q with q * scaling < 0.001 never
  decreases; a link above the threshold for rejection then stays usable although
  every HELLO is lost.
* [C83] a repeated packet counts as received but not as transmitted; copies
  lower the metric of a link below that of a perfect one.
* [C85, C90] the speeds are copied into an array of `int`: a link with 2.5 Gbit/s
  counts as a link of unknown speed and gets a metric of about 2 million.
* [C86] with the quadratic or cubic exponent the cost of the loss jumps down (from
  62.5 or 1000 to 8) when more packets are lost; the same happens with a
  quality of 0 from layer 2.
* [C87] the cubic exponent is a fourth power because the loop squares the intermediate result.
* [C88] with the cubic exponent copies of one packet lead to a signed overflow.
* [C89] `ffdat_airtime` is never read. The size of the neighborhood is only
  calculated if it is already known to be larger than 1, so `ffdat_mic` and the
  dynamic exponent have no effect.

### Contents of HELLOs and link timers

* [C92] `C92_lost_counterexample`: a symmetric link whose timers run out is lost
  together with the address of the neighbor. The next HELLO then contains
  OTHER_NEIGHB=LOST without LINK_STATUS=LOST, so the neighbor keeps its side symmetric
  until its own timer fires (RFC 6130 wants LINK_STATUS=LOST).
* [C92] the undefined value 3 of LINK_STATUS counts as "heard".
* [C93] `C93_overdue_counterexample`: packets are read after the clock was updated but before
  timers are processed. A HELLO read while the symmetric timer is overdue
  makes the difference of both negative (a huge unsigned number), the heard timer is set to
  at most 100 ms, and the link is lost although a HELLO just arrived.
* [C93] `C93_infinite_counterexample`: validity time code 255 ("infinite") wraps around and
  expires within 100 ms.
* [C93] `C93_zero_counterexample`: validity time 0 together with an address collision leaves
  a link without any timer; it is never removed.

### Plugin loader

* [C95] `C95_case_counterexample`: plugins are found with `strcasecmp`, reverse dependencies with
  `strcmp`. If a dependency is written in another case, a plugin is stopped while a plugin that
  depends on it runs.
* [C96] `C96_retry_counterexample`: the mark against circular dependencies is not removed when a
  start fails; the next attempt reports a circular dependency.
* [C97] `C97_overflow_counterexample`: `oonf_subsystem_extract_name` subtracts the length of the
  prefix instead of the length of the postfix. For "liboonf_http.so" (every name of 4 characters)
  2^64 - 1 bytes are copied into a buffer of 32 bytes; other names are cut off.
* [C97] the '/' itself belongs to the rest of the path, so the prefix is not found.
* [C99] `C99_static_counterexample`: `can_cleanup` is not checked for reverse dependencies.
* [C100] `C100_name_counterexample`: a library that does not contain the plugin looked for is closed,
  the plugin it registered stays in the tree.
* [C100] `C100_schema_counterexample`: unloading does not remove the configuration section of the
  plugin from the schema.
* [C101] `C101_inverted_counterexample`: both tests for the command word are inverted.

### Configuration

* [C105] `C105_mandatory_counterexample`: missing mandatory entries are noticed only for named
  sections. `C105_values_counterexample`: only the first value of an entry which is not a list
  is checked.
* [C106] `C106_freed_counterexample`: if two schema entries with validators have the same key and
  the first one removes the last value, the freed entry is used for the second one.
* [C106] `C106_list_counterexample`: the flag for a bad value is not reset, the good values behind
  it are removed as well. `C106_unknown_counterexample`: unknown entries are reported but not removed.
* [C107] `C107_default_value_counterexample`, `C107_twice_counterexample`, `C107_vanish_counterexample`:
  for a section type with a default name the handler is not called if values of the default section
  change, is called twice if the default section takes the place of a section with the same name, and
  is called without the section before the change if the default section vanishes.
* [C108] `C108_order_counterexample`: values are saved from first to last, but each line is put in
  front when it is loaded: lists are reversed, and another value is used for other entries.
* [C108] `C108_overrun_counterexample`, `C108_swallow_counterexample`: the search for white space
  behind a key does not stop at the end of the line. A file which ends with a key without value is
  read (and written) behind its end, in the middle of a file the next lines become the value.
* [C109] `C109_set_abort_counterexample`: setting "", "=v", "k=v" or "t.=v" ends in an assertion or
  in a null key. `C109_remove_name_counterexample`: removing "t[n]." removes all sections of type t.
* [C110] `C110_string_counterexample`: the validator of texts allows one character more than fits
  into the array (interface names of 16 characters, keys of 256 characters lose the last one).
* [C110] `C110_truncated_counterexample`: the check against the size of the number only prints a message.
  `C110_window_counterexample`: `simple_security` passes one argument too many to its macro, so its window
  can only be configured as 0 or 1. `C110_single_list_counterexample`: the guard for lists forgets the
  terminating zero, so that a list with one value is refused, too.
* [C111] `C111_bitmap_counterexample`: an empty value sets bit 0, "4294967301" sets bit 5 and " -5" sets
  bit 251.
* [C112] `C112_extra_word_counterexample`: a value with more words than entries makes the validation call
  functions from behind the array of entries. `C112_last_default_counterexample`: the default of the
  last entry is never used.
* [C113] `C113_freed_counterexample`: the start of the new text is remembered as a pointer before the
  buffer grows; the loop then reads and writes freed memory.
* [C114] `C114_rollback_counterexample`: the copy which a rollback makes is not linked to the schema, so
  every later apply fails until the configuration is reloaded; the main loop ends the daemon when the
  next commit fails. `C114_global_counterexample`: a failed apply has replaced the binary copy of the
  global section (and loaded and unloaded plugins) already, and rollback does not bring it back.
  `C114_late_plugin_counterexample`: a plugin which is loaded by a later apply is not told about its
  section if that has default values.
* [C115] `C115_heard_counterexample`: two-hop addresses are stored for links which are only heard (RFC 6130
  allows them for symmetric links only). `C115_forever_counterexample`: with validity time 0 they never expire.
* [C116] `C116_counterexample`: `nhdp_db_2hop_is_lost` returns true while the validity timer runs, so the
  routing skips every two-hop address; `C116_no_route_counterexample` is a small network where the route is missing.
* [C118] `C118_case_counterexample`: names of header fields are case sensitive ("content-length" is not found).
* [C119] `C119_counterexample`: %00 and "%" without a digit behind it end the URI.
* [C120] `C120_get_counterexample`: the URI is decoded before it is split into parameters ("%26" separates them).
  `C120_post_counterexample`: parameters of POST requests are not decoded.
* [C121] `C121_hidden_counterexample`, `C121_slash_counterexample`: a handler which is alphabetically between hides
  a directory ("/a/b" hides "/a/" for "/a/c").
* [C122] `C122_content_counterexample`: static content is delivered without looking at the access control list and
  the credentials.
* [C123] `C123_traversal_counterexample`: with the web server active, "GET /www#../../etc/passwd" opens this path:
  `&decoded_request_uri[5]` is behind the end of "/www", where the fragment still is. For "/www" alone the path is
  uninitialised memory (`C123_uninitialised_counterexample`); "/www/.." opens the parent (`C123_parent_counterexample`).
* [C124] `C124_stuck_counterexample`: the parser overwrites the buffer, so that a POST request whose body arrives
  later is never completed. `C124_early_counterexample`: the content length is compared with the length of header
  and body. `C124_body_counterexample`: an empty line in the body is taken for the end of the header.
* [C126] `C126_counterexample`: for "/telnet" the commands are read behind the end of the URI.
* [C127] `C127_length_counterexample`, `C127_forged_counterexample`: `_cb_validate_by_sign` returns -1 from a
  function with result `bool` if the lengths differ (or signing fails), which is true: any message with an ICV value
  of one byte passes the check without knowledge of the key.
* [C127] `C127_no_block_counterexample`: the packet TLV consumers are only called for packets with a TLV block
  (rfc5444_reader.c:219-222), so a mandatory packet signature is avoided by leaving the block out.
* [C128] `C128_two_signatures_counterexample`: the second signature of a sender covers the first ICV TLV, the receiver
  removes all of them. `C128_two_ids_counterexample`: the shared-key callback answers DROP instead of IGNORE for foreign
  key ids. `C128_later_counterexample`: a later ICV TLV overwrites the result of an earlier one.
* [C130] `C130_overflow_counterexample`, `C130_hang_counterexample`, `C130_read_counterexample`, `C130_null_counterexample`:
  unauthenticated messages overrun the static buffer, let the check loop for ever, read behind the packet, use the null
  pointer of an algorithm that is not loaded.
* [C131] `C131_reserved_counterexample`: TLV header, algorithm numbers and key id are not part of the reserved space.
* [C132] `C132_never_active_counterexample`, `C132_confusion_counterexample`: rfc7182_add_crypt fires the event of the hash
  class. Also (not modelled): the identity encryption has no `getSignSize`, so configuring it calls a null pointer;
  rfc5444_msg_generator.c:1527-1535 passes the loop variable `target` after the end of its loop to the postprocessor.
* [C133] `C133_forgotten_counterexample`: the first packet of a new node is dropped as duplicate with timestamp 0; the second is
  accepted without challenge if its timestamp is below the window. `C133_restart_counterexample`: the counter starts at 1
  after a restart, queries repeat. `C133_third_counterexample`: a response does not name the node that asked.
* [C134] `C134_first_counterexample`, `C134_lost_counterexample`, `C134_overflow_counterexample`: see the property.
* [C135] `C135_delay_counterexample`: `_cb_neighbor_node_timeout` does not stop `_trigger`.

### DLEP

* [C137] `C137_large_message_counterexample`: a message of more than 4096 bytes closes the session, although RFC 8175
  allows 65535. `C137_lost_output_counterexample`: a malformed message followed by another message in the same block:
  the second violates the restriction to the acknowledgement, the session is closed and the Session Termination is
  never sent.
* [C138] `C138_terminate_counterexample`: `dlep_session_terminate` (dlep_session.c:217-224) sends the message only if the
  session is *not* established. `C138_goes_on_counterexample`: after the acknowledgement of Session Termination all
  messages are still handled. `C138_handler_error_counterexample`: an error of a handler closes the connection silently.
* [C139] `C139_oversize_counterexample`: `dlep_writer_finish_signal` leaves the bytes of a failed signal in the buffer
  (the same holds for every handler which returns between start and finish).
* [C140] `C140_heartbeat_counterexample` (`htonl` of a 64-bit number), `C140_int64_counterexample` (the same, dead code),
  `C140_peer_type_counterexample` (length check off by one, `text_length - 2`, uninitialised text for an empty peer
  type, which is then printed), `C140_prefix_counterexample` (no check of prefix lengths).
* [C141] `C141_effects_counterexample` (effects before a refusal), `C141_unknown_counterexample` (unknown messages are
  ignored), `C141_other_rules_counterexample` (`_check_duplicate` uses the last entry of an extension which does not know
  the message).
* [C142] `C142_crash_counterexample`: `dlep_session_update_extensions` calls the deactivation callback of each optional
  extension which the peer does not name; three of four have none: any peer without the experimental extensions crashes
  the daemon. More than four known ids (repetitions) write behind `extensions[7]`. `C142_mtu_counterexample`: the MTU
  TLV ends the session.
* [C143] `C143_shared_counterexample`: one withdrawal for two reasons to announce. `C143_origin_counterexample`:
  `oonf_layer2_net_add_ip` overwrites the origin of an existing address.
* [C144] `C144_silenced_counterexample`: the early returns of `_cb_receive_udp` leave `remote_socket` set, so that
  `_cb_send_multicast` never sends again (on a router nothing resets it). `C144_leak_counterexample`: signals are
  written to the buffer before it is checked whether they may be sent.

### NHDP interfaces

* [C145] `C145_ipv4_lost_counterexample`, `C145_ipv6_lost_counterexample`: `nhdp_interface_update_status` counts a
  dualstack neighbor by its IPv4 link and assumes that both links are symmetric. If only the IPv6 link is, the neighbor
  gets no flooded message; if only the IPv4 link is, messages are sent over IPv6 only. `dualstack_af_type` never changes
  the decision (`C145_families` has no use for it).
* [C146] the hold time 0 never ends, because `oonf_timer_set(0)` stops the timer; settings apply the old hold time to
  addresses lost by the same call.
* [C147] `C147_dangling_counterexample`: `nhdp_interface_remove` only makes links unsymmetric and frees the interface;
  `nhdp_db_link_remove` and the timers of the links use `local_if` afterwards.

### RFC5444 sockets

* [C148] `C148_target_counterexample`: `oonf_rfc5444_add_target` never increments the reference count of an existing
  target (but always that of the interface), so the first `oonf_rfc5444_remove_target` frees it for everybody, and the
  interface keeps a reference for ever. `C148_order_counterexample`: `oonf_rfc5444_remove_target` gives up the interface
  before `_destroy_target` reads it. `C148_listener_counterexample`: `oonf_rfc5444_remove_interface` returns before
  unhooking the listener if the interface has other users; `nhdp_interface_remove` frees the listener afterwards.
* [C149] `C149_messages_counterexample`: `oonf_rfc5444_add_interface` sets the message sequence number of the whole
  protocol to a random number for each new interface; the next TC messages may be ignored by all other routers.
  `C149_packets_counterexample`: each change of addresses replaces the multicast targets and with them the packet numbers
  (`ff_dat_metric` of the neighbors takes this for loss).
* [C150] `C150_lost_counterexample`: with the targets the messages in their buffers are lost.
  `C150_overwrite_counterexample`: `_cb_msggen_notifier` computes the interval and then uses another one.
  `C150_empty_counterexample`: `rfc5444_writer_forward_msg` begins a packet before it knows whether the message fits.
* [C151] `C151_port_counterexample`: the port is stored into the configuration of the interface at first use and taken for
  a configured one later. `C151_unicast_counterexample`: the targets are taken from the argument, not from the corrected
  copy. `C151_section_counterexample`: `goto interface_changed_cleanup` before `config` is initialised; `interf` may be NULL
  if a section existed but could not be converted.

### TCP sockets

* [C152] `C152_limit_counterexample`: `_stream_close` decrements `session_counter` for every session, `_create_session`
  increments it for admitted ones only: each client that is turned away frees a place it never had.
  `C152_leak_counterexample`: a failed `init_session` keeps its place (and, not modelled, frees the session with its timer
  and its socket still registered).
* [C153] `C153_eof_counterexample`: `receive_data` is called for the end of the stream and, if it returns `ACTIVE`, again
  by the following block; all events are off then, so the session waits for its timeout.
  `C153_copy_counterexample`: sending a file does not restart the timeout. `C153_underrun_counterexample`: the output of
  `buffer_underrun` does not switch write events on. Also: every result of `sendfile` that is not positive, EAGAIN
  included, ends the session.
* [C154] `C154_force_counterexample`: `force` is used only for the check of `busy`; sessions with output keep a pointer to
  the removed socket, `oonf_stream_add` initialises the list under them. `C154_sticky_counterexample`: `remove` is never
  reset. Also (not modelled): `oonf_stream_connect_to` closes the listening socket instead of the new one when it fails.
* [C155] `C155_clients_counterexample`: nothing ever assigns `config.acl`; the option `acl` of the HTTP and the telnet
  server (and of every other managed TCP socket) has no effect. `C155_address_counterexample`: the search for an exactly
  named address looks at the accepted addresses only.

### Telnet

* [C157] `C157_unfinished_counterexample`: a line without end is handled like a command when the other side has closed
  (`eol` is NULL), but it is not taken out of the buffer: `_cb_telnet_receive_data` (lines 405-508) never leaves its loop,
  its output grows until memory is used up. Any client that may connect can stop the daemon this way.
  `C157_open_counterexample`: the callback answers the end of the stream with `ACTIVE`; with C153 the session waits for its
  timeout, with `timeout` without a value forever; three of them take all places of the service.
* [C158] `C158_route_counterexample`: `route` (remotecontrol.c:665-676) sets the stop handler without looking for the one
  of `repeat`; the timer of `repeat` keeps running and uses the freed session. `C158_stack_counterexample`: via HTTP
  (`oonf_telnet_execute`, oonf_http.c:903) the session is on the stack.
* [C160] `C160_echo_counterexample`: `show_echo` is switched off by `repeat` and on again only in `oonf_telnet_stop`, not
  when input stops the command.
* [C161] `C161_overread_counterexample`: `_avl_comp_strcmdword` advances both pointers before it looks for the end and then
  reads behind the NUL. `C161_order_counterexample`: the end of a word counts as 0 or as blank.
* [C162] `C162_seconds_counterexample`: 32-bit product. `C162_configured_counterexample`: the session gets
  its configured timeout from the stream socket, then `session_timeout` of the telnet data (120000) with the first input.

### Logging and remote control

* [C163] `C163_null_counterexample`: `oonf_log_stderr` is called with NULL if there is no handler and begins with
  `entry->custom`: every warning before `oonf_logcfg_apply` (for instance an unreadable configuration) or after
  `oonf_logcfg_cleanup` is a crash. `C163_endless_counterexample`: with debug messages of `os_fd` switched on (`log.debug
  all`), typing `log` in a telnet session ends the daemon: each line asks for write events, which is logged again.
  `C163_text_counterexample`: the nested message overwrites `_logbuffer`, which the outer loop still uses (and may move it).
* [C164] `C164_file_counterexample`: the file is opened only if the handler is not added yet.
* [C165] `C165_severity_counterexample`: the check compares with `LOG_SEVERITY_MAX`, which is a valid severity, instead of
  the value behind it. `C165_refused_counterexample`, `C165_all_counterexample`, `C165_lower_counterexample`: see C165.
* [C167] `C167_metric_counterexample`: remotecontrol.c:615 assigns `table` instead of `metric`.
  `C167_prefix_counterexample`: `key.src` is missing in the comparison of families. `C167_table_counterexample`: `atoi` into
  `unsigned char`.

### UDP sockets

* [C168] `C168_empty_counterexample`: `result > 0` is required for success, otherwise an old `errno` decides.
  `C168_long_counterexample`: the length is stored in 16 bits without a check.
* [C169] `C169_acl_counterexample`: no code ever reads `_managed_config.acl` of packet sockets; the option `acl` of RFC5444
  interfaces ("Access control list for RFC5444 interface", oonf_rfc5444.c:188) has no effect.
  `C169_raw_counterexample`: with the stale protocol number of C170, one UDP byte is enough for a length of 2^64 - 3.
* [C170] `C170_endless_counterexample`: `changed` is set when the unicast socket is opened and stays set when it is closed
  again because the multicast socket failed; `_cb_interface_changed` then applies the configuration again, and again,
  until the stack is used up. `C170_raw_counterexample`: `oonf_packet_add` does not reset `protocol`.
  `C170_protocol_counterexample`: `oonf_packet_raw_add` passes `false` as protocol to `os_fd_getrawsocket` (line 154); Linux
  refuses protocol 0, so raw IP sockets never work. `C170_options_counterexample`: only address, interface and protocol
  are compared. `C170_silent_counterexample`: `changed` is not set when sockets are closed. `C170_interface_counterexample`:
  `os_interface_linux_add` overwrites the pointer to the name. Also (not modelled): such a listener with `mesh` decrements a
  mesh counter on removal that it did not increment.
* [C171] `C171_number_counterexample`: the counter includes the reported error.

### Route import plugins

* [C172] `C172_long_counterexample`, `C172_prefix_counterexample`: the name is cut by `strscpy`, but looked up in full length;
  the result of `avl_insert` is ignored.
* [C173] `C173_vanished_counterexample`: the result of `if_indextoname` is ignored. `C173_zero_counterexample`: help texts and
  comments of the structure say 0, the code tests -1.
* [C174] `C174_twin_counterexample`: the key of an imported network is only the prefix; one route of two is removed and the
  network is withdrawn. `C174_config_counterexample`: `_destroy_import` frees the section without its networks.
  `C174_metric_counterexample`: `_add_lan` returns an existing entry without a look at the metric.
* [C175] `C175_freed_counterexample`, `C175_section_counterexample`: no `oonf_timer_stop` in `_destroy_lan` and
  `_destroy_import`; the timer writes into freed memory. `C175_domain_counterexample`: each domain can stop the timer for all.
* [C176] `C176_domain_counterexample`: `domain->index` instead of `domain->ext`.
* [C177] `C177_section_counterexample`, `C177_other_counterexample`: `_destroy_l2export` first removes the section from the tree
  and then lets all other sections withdraw the networks. `C177_domain_counterexample`: no test of the result of
  `nhdp_domain_get_by_ext`. `C177_late_counterexample`, `C177_shared_counterexample`: see C177.

### Automatic link-local addresses

* [C178] `C178_char_counterexample`: `hash += key[i]` with `const char *key` (auto_ll4.c:738) extends the sign.
* [C179] `C179_endless_counterexample`: the loop of `_cb_update_timer` has no limit; 65024 addresses in HELLO messages stop the
  daemon. `C179_reserved_counterexample`: any 169.254/16 address of the interface becomes `auto_ll4_addr`.
* [C180] `C180_user_counterexample`: no test of `plugin_generated` before a colliding address is removed.
  `C180_replaced_counterexample`: `plugin_generated` is only changed by requests, not when the address changes.
  `C180_stays_counterexample`: a plugin that is off tests for exactly one IPv4 address.
* [C181] `C181_leak_counterexample`: `_cb_remove_nhdp_interface` tests `active`. `C181_delay_counterexample`: `oonf_timer_set` with
  0 stops a timer. `C181_twice_counterexample`: `os_interface_address_set` adds an element to a list it may be in already.

### Netlink

* [C182] `C182_unaligned_counterexample`: `abuf_memcpy(nl->out, nl_hdr, nl_hdr->nlmsg_len)` (os_system_linux.c:382) does not pad.
* [C183] `C183_lost_counterexample`: EAGAIN is taken as success (os_system_linux.c:541-542), but without messages in transit.
* [C184] `C184_ends_counterexample`: `current_seq` is set at the first message of a datagram only.
  `C184_failed_counterexample`: `_flush_netlink_buffer` reports `nl->in->nlmsg_seq`, the number of the last message received.
* [C185] `C185_timeout_counterexample`: `_cb_handle_netlink_timeout` clears `msg_in_transit` after the call of the client, which did not ask for
  write events because of it. `C185_fail_counterexample`: write events are switched off after the call of the client.
  `C185_timer_counterexample`: NLMSG_DONE stops the timer.

### Network interfaces

* [C186] `C186_gone_counterexample`: `_cb_rtnetlink_message` drops messages whose interface has no name any more; a query only adds.
  `C186_mac_counterexample`: `netaddr_from_binary_prefix` with a given type copies `len` bytes into 16 (netaddr.c:197).
* [C187] `C187_stuck_counterexample`, `C187_lost_counterexample`: `_process_bad_end_of_query` repeats the query from within the callback, see C185.
* [C188] `C188_new_counterexample`, `C188_failed_counterexample`: `_trigger_if_change` marks the listeners only if the timer does not run.
  `C188_noaddress_counterexample`: `_addr_initialized` is only set by a message about an address.
* [C189] `C189_two_counterexample`, `C189_again_counterexample`, `C189_kept_counterexample`: `_cleanup_mesh` does not reset `flags.mesh`, and
  `_remove_interface` calls it a second time. `C189_section_counterexample`: "reactivate mesh settings" calls `_cleanup_mesh`.
  `C189_loopback_counterexample`: `flags.loopback` is not known yet in `_init_mesh`.
* [C190] `C190_timeout_counterexample`: `list_for_each_element` with removal of the element.

### Routes of the kernel

* [C191] `C191_source_counterexample`: RTA_SRC is only written for AF_INET6 (os_routing_linux.c:455); an IPv4 route with a source prefix is set for
  all sources. `C191_mixed_counterexample`: the family of the source prefix is not compared.
* [C192] `C192_anysource_counterexample`: routes without RTA_SRC are parsed with an unspecified source, keys made by
  `os_routing_init_sourcespec_prefix` have the source 0/0.
* [C193] `C193_endless_counterexample`, `C193_new_counterexample`, `C193_interrupt_counterexample`: `avl_for_each_element_safe` over
  `_rtnetlink_feedback`, while callbacks change it; `_cb_route_finished` of layer2_export.c does (it removes a route whose setting failed).
  `C193_twice_counterexample`: OONF_ASSERT for a second request.
* [C194] `C194_swallowed_counterexample`, `C194_deleted_counterexample`: the sequence number of a notification belongs to the program that
  changed the route; the port id is not compared.

### Layer2 export

* [C195] `C195_two_counterexample`: one object per section and key, whatever the number of neighbors. `C195_waiting_counterexample`:
  `os_routing_set` for an object that waits. `C195_flap_counterexample`, `C195_overlap_counterexample`: `_removal_tree` has no duplicates,
  the result of `avl_insert` is ignored, and `avl_remove` is called for a node that is not in the tree.
  `C195_failed_counterexample`: errors are not repeated.
* [C196] `C196_changed_counterexample`: `_cb_cfg_changed` neither looks at known addresses nor at existing routes.
  `C196_table_counterexample`: `fib_table` up to 65535, but `table` is an `unsigned char`.
* [C197] `C197_long_counterexample`: `originator` has 16 bytes.

### DLEP destinations

* [C198] `C198_default_counterexample`, `C198_default_witness_counterexample`: `_cb_l2_dst_added` and `_cb_l2_dst_removed` (proto_radio.c:711-732)
  pass no `l2dest`, so proxied destinations are filtered by `send_neighbors`, which is off by default. `C198_proxied_counterexample` is the same
  with the options exchanged. `C198_update_counterexample`: `_l2_neigh_changed` sets `neigh_key` to the key of the destination, under which no
  neighbor is found, so the message is dropped. `C198_timeout_counterexample`: a late acknowledgement makes the radio forget the destination
  that the router knows. `C198_shared_counterexample`: a destination behind two neighbors.
* [C199] `C199_unknown_counterexample`, `C199_order_counterexample`, `C199_late_counterexample`: `local` is not tested (proto_radio.c:376-382, 406-411).
* [C200] `C200_deaf_counterexample`: `_cb_cleanup_radio` removes the listeners that all sessions share. `C200_timer_counterexample`:
  `dlep_session_remove` does not remove the local neighbors; their timers point to the freed session. `C200_early_counterexample`:
  `_l2_neigh_added` does not look at `restrict_signal`.
* [C201] `C201_nometrics_counterexample`: `oonf_layer2_neigh_remove` only commits if something changed. `C201_second_counterexample`,
  `C201_shared_counterexample`: DESTINATION_DOWN for an unknown destination is an internal error that ends the session.
* [C202] `C202_port_counterexample`: `port` is read uninitialized (proto_router.c:329). `C202_tls_counterexample`: after an offer with TLS only
  the router connects without TLS, to the port offered for TLS.
* [C203] `C203_zero_counterexample`, `C203_victim_counterexample`: sockets without listening port keep the zeroed `struct os_fd`, and
  `os_fd_close` (oonf_stream_socket.c:227, 284) closes descriptor 0. `C203_refused_counterexample`: line 284 should close `sock`.
  `C203_objects_counterexample`: `_cb_tcp_lost` of the router does not remove the stream socket.

### Event scheduler

* [C204] `C204_freed_counterexample`, `C204_removed_counterexample`: the events keep pointers to the sockets; a handler that closes another
  socket does not remove its event. `C204_own_counterexample`: oonf_socket.c:264-268 writes into the entry after its handler, which may have
  closed and freed the session (`_stream_close`). `C204_hangup_counterexample`, `C206_hangup_counterexample`: EPOLLHUP and EPOLLERR are reported
  without being asked for; if they come alone nobody is told, and `epoll_wait` returns at once again.
* [C205] `C205_again_counterexample`: `os_fd_init` keeps `wanted_events`. `C205_early_counterexample`: EPOLL_CTL_ADD with no events.
* [C206] `C206_late_partial`: the delay is calculated with the clock from before the timers. `C206_signals_counterexample`: after EINTR
  `epoll_wait` is called with the same delay. `C206_past` (a hazard, not reached): a deadline in the past means 24 days.
* [C207] `C207_deaf_counterexample`: `_trigger_reload` is only reset by a successful `oonf_cfg_apply`; after a SIGHUP with an unreadable
  configuration the scheduler returns before each wait, so no socket is served any more. `C207_apply_counterexample`: `break` without
  `exit_code = 1` (oonf_main.c:415-429).

### Probing and attached networks

* [C208] `C208_address_counterexample`: the unicast target is created once, with the address of that time (neighbor_probing.c:343-350), but the
  address of a link changes with its HELLO messages (nhdp_reader.c:665); the probes go on to the old address.
* [C209] `C209_errno_counterexample`: `errno` is not reset before `strtoul` (old_lan.c:250-271), so that `domain=0` and `dist=0` are refused after any
  earlier error; when this happens only while the configuration is applied, the network is dropped without a message.
  `C209_wrap_counterexample`: the result is stored in 32 bits before it is checked.
* [C210] `C210_order_counterexample`: a line without domain is for the domains that exist when it is read.
* [C211] `C211_exchange_counterexample`: each section removes its old network and adds its new one before the next section is looked at.

### Configured link data, link costs and checks of HELLOs

* [C212] `C212_again_counterexample`, `C212_flap_counterexample`: the two origins of link_config have the same priority, so that a value that is
  applied again is refused and then removed with the old ones. Configured values come and go with each update.
  `C212_section_counterexample`: the delayed update uses `post` of the section visited last with the name of the section changed last.
  `C212_name_counterexample`: values are set on the configured name but relabelled on the physical one. The relabel loop ends at
  `OONF_LAYER2_NET_COUNT` for both kinds of data.
* [C213] `C213_partner_counterexample`: a partner without originator matches the entries for all neighbors of the interface before the entry for the
  neighbor on any interface is looked for. `C213_learn_counterexample`: an originator that is learned after the timer fired does not start it again.
* [C214] `C214_addresses_counterexample`: `_nhdp_address_consumer` does not set `addrblock_consumer` (nhdpcheck.c:115-124), therefore the checks of
  addresses are applied to the TLVs of the message, and never to addresses. `C214_message_counterexample`: correct messages with message TLVs of the
  types 2 to 4 are dropped. Messages are also logged with an uninitialized buffer.

### Imported routes and configured layer2 data

* [C215] `C215_alternative_counterexample`: entries are keyed by destination only, so the removal of one of two routes removes the entry of both.
  `C215_type_counterexample`, `C215_wait_counterexample`: an import that wants another type, or waits for a hardware address, ends the loop with
  `return` (layer2_import.c:400-525) instead of going on with the next one. `C215_name_counterexample`, `C215_gone_counterexample`: `ifname` is
  uninitialized for routes without interface or of a vanished one. `C215_stale_counterexample`: neighbors whose address moved on are not committed and stay without data.
* [C216] `C216_listener_counterexample`: `_remove_import` frees the entry without removing its interface listener (use after free with the next
  interface event). `C216_filter_counterexample`, `C216_stays_counterexample`: entries accepted by an old filter stay, even when the route is removed.
* [C217] `C217_removed_counterexample`: a removed section leaves all values. `C217_peer_counterexample`: `oonf_layer2_net_remove` does not look at
  addresses of the radio. `C217_dest_counterexample`: destinations keep the old origin, so they vanish with each second update.
  `C217_steal_counterexample`: addresses of others get the origin of the plugin. `C217_telnet_remove_counterexample`: only addresses compare origins.
  `C217_telnet_add_counterexample`: the next delayed update removes the value. The validators print an error for a value of a wrong type but return 0.
* [C218] `C218_lost_counterexample`: the node is inserted by `_add_if_data` and again by `_cb_config_changed`. The second `avl_insert` clears the
  pointers of the node before it finds the key.

### Wireless interfaces

* [C219] `C219_fast_counterexample`, `C219_restart_counterexample`: the only test for a wrap is a difference of more than 2^31, so a counter that wraps
  after a larger step loses 2^32, and one that starts again runs backwards or jumps. `C219_mega_counterexample`: rates are multiplied with 1024 * 1024
  instead of 10^6. `C219_vht_counterexample`: the VHT rate for sending goes to `max_rx` (nl80211_get_wiphy.c:486-490). `C219_multicast_counterexample`:
  the rate is divided by the bandwidth instead of multiplied.
* [C220] `C220_stale_counterexample`: `oonf_layer2_net_cleanup` and the relabelling happen only if data of the network changed
  (nl80211_listener.c:621-631); with a driver without survey stations that left are shown for ever. `C220_objects_counterexample`:
  `oonf_layer2_net_cleanup` does not look at destinations and does not commit neighbors. If the flag MCS_BY_PROBING was reset by someone else (`l2config
  remove`), its metadata is missing and the next series ends in an assertion (nl80211_listener.c:623; not modelled).
* [C221] `C221_family_counterexample`: callbacks do nothing as long as family or group are unknown, so `_current_query_in_progress` stays set.
  `C221_removed_counterexample`: `_nl80211_if_remove` does not look at `_current_query_if`.

### The registry of the RFC 5444 writer

* [C223] `C223_stale_counterexample`: `rfc5444_writer_create_message` does not look at `_registered`, and `rfc5444_writer_unregister_message` does not
  clear the callbacks of the object, so a message with providers of other plugins is still generated, with the header callback of its former owner.
  `C223_forward_counterexample`: `rfc5444_writer_cleanup` leaves the forward handlers linked in the tree of the writer.
* [C224] `C224_mandatory_counterexample`: `rfc5444_writer_add_address` sets the mandatory flag of a known address without moving it to the other list,
  so fragments that are full before it do not contain it. The callers in `nhdp_writer.c` ignore the result of `rfc5444_writer_add_addrtlv`: with a full
  buffer addresses are sent without their LINK_STATUS.

### Algorithms of NHDP domains

* [C225] `C225_removed_counterexample`: `nhdp_domain_metric_remove` and `nhdp_domain_mpr_remove` leave the loop with `break` after the first domain, so
  other domains keep a pointer into an unloaded plugin. `C225_flooding_counterexample`: the flooding domain is not in the list and is never reset.
  `C225_late_counterexample`: `nhdp_domain_mpr_add` applies `domain->mpr_name`, which is by definition the name the domain has, so its loop never does
  anything; metrics have no such loop. `C225_wildcard_counterexample`: a reload of the same configuration with `*` stops and restarts the algorithm.
  Not modelled: a new algorithm does not mark the domain as outdated; `nhdp_domain_cleanup` does not reset the counter of domains.
* [C226] `C226_twice_counterexample`: after a change the algorithm is called a second time.
* [C235] `C235_two_counterexample`: a release with only two numbers, as Debian used for 3.3 to 3.16 (`3.11-2-amd64`), fails to
  parse when both numbers equal the required ones, so source specific routing is not used on a kernel that has it.
* [C236] `C236_off_counterexample`: `oonf_packet_send_managed` returns 0 ("sent") for an unspecified destination, which is what
  a switched off multicast address is; the comment promises 1. `C236_group_counterexample`: `oonf_rfc5444_send_interface_data`
  uses only the family of a multicast destination, the packet goes to the group configured for the interface.
* [C237] `C237_zero_counterexample`: a radio with `lid_length` 0 sends no length, and the router falls back to 4.
  `C237_generated_counterexample`: `oonf_layer2_neigh_generate_lid` always makes four bytes; with another `lid_length`
  `dlep_session_add_local_neighbor` refuses these neighbors, and the router never hears of them.
* [C238] `_cb_l2gen_event` overwrites `link_id` and `link_id_length` of a neighbor while it is in the tree (layer2_generator.c:246-247).
  `C238_grow_counterexample`: the next event does not find it and adds another one, without end.
  `C238_search_counterexample`: the second event puts the tree out of order, so that neighbors in it are not found.
* [C239] `olsrv2_generate_tcs` does not store its argument in `_generate_tcs`, which stays true (olsrv2.c:251, 703).
  `C239_off_counterexample`: after it has switched off the TCs, any change of the section `olsrv2` switches them on again.
  `C239_period_counterexample`: `olsrv2_set_tc_interval` does not touch the running timer; the TCs announce the new interval and
  come with the old one. `C239_override`: an override set before the first configuration keeps the timer from starting at all.
* [C241] `C241_missing_counterexample`: `oonf_viewer_telnet_handler` reports a missing parameter but does not return
  (oonf_viewer.c:309-311); it reports it again as unknown. Telnet passes NULL for a command without blank, which then is printed with `%s`.
  `C241_help_counterexample`: the help compares the rest of the line with `strcmp`, the command compares the next word without case.
* [C242] `C242_blank_counterexample`: a parameter that holds only blanks is reported as an unknown subcommand.

### Link speeds, tunnels and virtual interfaces

* `eth_listener` writes default bit rates with `meta = NULL` (eth_listener.c:226-227). `oonf_layer2_data_reset` clears `_meta`; when a
  source that wrote the rate is removed while the interface object stays, the next run fails `OONF_ASSERT(l2data->_meta != NULL)` and
  aborts the daemon (`C227_reset_counterexample`). `ff_dat_metric` writes in the same way.
* A default rate is never withdrawn when the speed is not known any more (`C227_stale_counterexample`).
* `avl_insert` fails for tunnels whose names differ only in case, its result is ignored: the tunnel stays in the kernel forever
  (`C228_case_counterexample`).
* IPv4 answers `EEXIST` by deleting the tunnel with the same end points, whoever created it, and may fail afterwards
  (`C228_steal_counterexample`).
* IPv6-in-IPv4 and GRE-in-IPv4 tunnels are requested from `tunl0`; `sit0` and `gre0` are never used (`C228_device_counterexample`).
* `_tunnel_base_up` is never reset: a base device that was taken down stays down (`C228_down_counterexample`).
* `os_vif_linux_open` does not store the socket in the object, `os_vif_linux_close` dereferences the pointer
  (`C229_close_counterexample`); a second open inserts the tree node again (`C229_reopen_counterexample`).

### Recalculation of routes

* `olsrv2_routing_set_domain_parameter` removes the kernel routes of the domain (also when routes are frozen) and starts a recalculation,
  but does not set `_domain_changed`: the recalculation skips the domain, the routes stay away until something else changes in it
  (`C230_parameter_counterexample`). It also shortens the waiting time to 100 ms (`C230_rate_counterexample`), and as every change
  restarts the timer, changes every 100 ms stop recalculations altogether (`C230_starve_counterexample`).
* The ANSN is incremented by the recalculation, up to 1.1 seconds after the change; TCs sent in between have new content and the old ANSN
  (`C231_pending_counterexample`).
* While routes are frozen the ANSN does not change at all (`C231_frozen_counterexample`).

### Configuration URLs and clock

* `avl_comp_cfgio` compares only as many characters as the scheme has: `uci://x` is given to a handler `ucix`, and the comparator is no order
  (`C232_prefix_counterexample`, `C232_order_counterexample`).
* Without handlers and default `avl_first_element` yields the list head, which is then used as a handler (`C232_nohandler_counterexample`).
* Without monotonic clock source a step back of less than a second is not seen (`C233_backwards_counterexample`); when this happens before
  the first second has passed the unsigned difference to the start is huge and all timers fire (`C233_huge_counterexample`).
