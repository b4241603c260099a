{"id": "C01", "title": "No data packet is delivered twice", "statement": "Within one session a receiver hands the payload of a given authenticated packet nonce to the tunnel at most once, no matter how often, in which order and how late the network repeats or reorders packets.", "quantifier": "all sequences of authenticated packets (nonce values) and all non-decreasing arrival times, starting from a fresh session on either side", "why_tests_cant": "The replay window is a 48-bit state machine with time-dependent expiry; a test samples a handful of reorderings out of an unbounded set of histories.", "anchors": ["src/methods/common.c: fastd_method_is_nonce_valid, fastd_method_reorder_check, fastd_method_common_init", "src/methods/common.h: fastd_method_handle_common_header"]}
{"id": "C02", "title": "Own packets reflected back are rejected", "statement": "A packet a node sent itself in a session (its nonce has the sender's own parity) is never accepted when an attacker reflects it back to that node.", "quantifier": "all session states and all nonces produced by the node's own send counter", "why_tests_cant": "Needs every (receive state, nonce) pair; the check looks at one bit and happens to be right for the first packets a test would send or wrong in a way no in-order test shows.", "anchors": ["src/methods/common.c: fastd_method_is_nonce_valid", "src/methods/common.h: fastd_method_increment_nonce"]}
{"id": "C03", "title": "Fresh and mildly reordered packets are accepted", "statement": "A packet newer than everything accepted so far is always accepted as in order; a not yet seen packet at most 64 sender packets older than the newest is accepted as reordered as long as the newest one arrived less than 10 seconds ago; anything older is refused.", "quantifier": "all receive histories, nonces and times", "why_tests_cant": "Boundary behaviour of window and timeout for all of 2^48 nonces and arbitrary history.", "anchors": ["src/methods/common.c: fastd_method_is_nonce_valid, fastd_method_reorder_check"]}
{"id": "C04", "title": "A session never reuses a nonce for sending", "statement": "All packets sent in one session carry pairwise different nonces, the two directions of a session use disjoint nonce sets, and the session reports itself invalid before the 48-bit counter could wrap.", "quantifier": "all numbers of packets sent in a session by initiator and responder", "why_tests_cant": "Wrap-around happens after 2^47 packets; no test sends that many.", "anchors": ["src/methods/common.h: fastd_method_increment_nonce, fastd_method_put_common_header", "src/methods/common.c: fastd_method_common_init, fastd_method_session_common_is_valid"]}
{"id": "C05", "title": "Packet header round trip", "statement": "The common data packet header written by the sender is parsed back by the receiver to exactly the same nonce and flags, consuming exactly the bytes that were added and leaving the payload untouched; headers of the wrong type for the session, or with an out-of-window nonce, are refused.", "quantifier": "all nonces, flag bytes, payloads and session flags", "why_tests_cant": "Encode/decode inverse over the whole input space.", "anchors": ["src/methods/common.h: fastd_method_put_common_header, fastd_method_put_common_header_raw, fastd_method_handle_common_header"]}
{"id": "C06", "title": "Session keys have a bounded lifetime", "statement": "No packet is encrypted or accepted with a session's keys more than KEY_VALID after the session was set up, nor more than KEY_VALID_OLD after it was superseded by a newer one; once expired a session never becomes valid again.", "quantifier": "all histories of clock advances, superseding and packets in a session", "why_tests_cant": "The claim is about hour-long histories and all points in time.", "anchors": ["src/methods/common.c: fastd_method_session_common_is_valid, fastd_method_session_common_superseded, fastd_method_session_common_want_refresh"]}
{"id": "C07", "title": "The packet buffer pool never runs dry", "statement": "Handling any event (tunnel packet, received UDP packet, timer) takes at most the three pooled buffers at once, never frees a buffer twice and returns all buffers by the end of the event, so the `out of buffers' abort is unreachable.", "quantifier": "all event sequences, including forwarding, flooding to any number of peers, failed decryption and keepalives", "why_tests_cant": "A leak or double free on one rare path only shows after many repetitions of just that path.", "anchors": ["src/buffer.c: fastd_buffer_alloc, fastd_buffer_free", "src/send.c", "src/receive.c", "src/protocols/ec25519_fhmqvc/ec25519_fhmqvc.c: protocol_handle_recv, session_send, protocol_send", "src/methods/*"]}
{"id": "C08", "title": "Buffer operations stay inside the buffer and keep the data", "statement": "Pushing, pulling, duplicating and aligning a packet buffer never touch memory outside its storage; pushing then pulling restores the data, duplicating and aligning preserve the data bytes and give at least the requested headroom with 16-byte alignment.", "quantifier": "all buffer states, lengths and headrooms", "why_tests_cant": "Memory safety must hold for every length/headroom combination.", "anchors": ["src/buffer.h: fastd_buffer_push*, fastd_buffer_pull*, fastd_buffer_align, fastd_buffer_dup, fastd_buffer_zero_pad"]}
{"id": "C09", "title": "A failed decryption attempt does not damage the packet", "statement": "If a packet cannot be authenticated under one session, the packet handed to the next session attempt is byte for byte the packet that was received.", "quantifier": "all packets, keys and session states, for the Poly1305 method that decrypts in place", "why_tests_cant": "Only the interaction of two sessions during rekeying shows corruption; depends on every header/tag byte.", "anchors": ["src/methods/generic_poly1305/generic_poly1305.c: method_decrypt", "src/protocols/ec25519_fhmqvc/ec25519_fhmqvc.c: protocol_handle_recv"]}
{"id": "C10", "title": "The configured buffer size suffices for every packet", "statement": "With any accepted configuration (MTU, mode, methods) every buffer requested while receiving, sending, encrypting or decrypting fits the size computed at configuration time, so fastd never aborts with `oversized buffer alloc'.", "quantifier": "all MTUs from 576 to 65535, all modes and all non-empty method sets", "why_tests_cant": "Two separately written size formulas must agree for the whole configuration space.", "anchors": ["src/config.c: configure_method_parameters, configure_peers", "src/receive.c: fastd_receive", "src/buffer.c: fastd_buffer_alloc", "src/iface.c: fastd_iface_handle"]}
{"id": "C11", "title": "Buffers stay large enough when peers are (re)loaded", "statement": "The buffers allocated at start-up are at least as large as the maximum size allowed by later peer configuration loads.", "quantifier": "all initial configurations and all later reloads", "why_tests_cant": "Depends on the history of configuration loads.", "anchors": ["src/fastd.c: init", "src/config.c: configure_peers, fastd_config_load_peer_dirs", "src/buffer.c: fastd_init_buffers"]}
{"id": "C12", "title": "The task queue always yields the earliest entry and loses nothing", "statement": "After any sequence of inserts and removals (of arbitrary elements) the queue holds exactly the inserted and not removed elements and its head has the smallest value.", "quantifier": "all sequences of insert/remove operations with arbitrary values", "why_tests_cant": "Shape of the pairing heap depends on the entire operation history.", "anchors": ["src/pqueue.c: pqueue_merge, pqueue_merge_pairs, fastd_pqueue_insert, fastd_pqueue_remove"]}
{"id": "C13", "title": "Queue links stay consistent", "statement": "At pointer level every queue operation keeps all parent/sibling/child links mutually consistent, so none of the corruption aborts in the queue is reachable and an element can always be unlinked in place.", "quantifier": "all sequences of insert/remove operations, at the level of the linked nodes", "why_tests_cant": "A dangling back pointer only surfaces on a later removal of one particular element.", "anchors": ["src/pqueue.c: pqueue_link, pqueue_unlink, pqueue_merge, pqueue_merge_pairs", "src/pqueue.h"]}
{"id": "C14", "title": "Timed tasks run in order and never early or lost", "statement": "Handling the task queue runs exactly the tasks whose time has come, in non-decreasing order of their due times, runs none before its due time, and leaves all other tasks scheduled; the poll timeout never lets a due task sleep.", "quantifier": "all task queues and times", "why_tests_cant": "Schedules are unbounded.", "anchors": ["src/task.c: fastd_task_handle, handle_task, fastd_task_schedule, fastd_task_reschedule_relative, fastd_task_queue_timeout", "src/polling.c: task_timeout"]}
{"id": "C15", "title": "Dynamic arrays behave like lists", "statement": "Resizing, inserting, deleting and adding elements behave like the corresponding list operations, never access memory beyond the allocation, and keep capacity at least the length.", "quantifier": "all sequences of vector operations and element values", "why_tests_cant": "Capacity growth and memmove ranges must be right for every length and position.", "anchors": ["src/vector.c: _fastd_vector_init, _fastd_vector_resize, _fastd_vector_insert, _fastd_vector_delete", "src/vector.h"]}
{"id": "C16", "title": "Address equality is an equivalence and agrees with the hash", "statement": "Comparing peer addresses is reflexive, symmetric and transitive on the supported families, and equal addresses always fall into the same hash bucket (link-local scope included exactly when compared).", "quantifier": "all pairs/triples of addresses, all hash seeds and table sizes", "why_tests_cant": "Hash/equality consistency over the whole address space.", "anchors": ["src/peer.c: fastd_peer_address_equal", "src/peer_hashtable.c: peer_address_bucket", "src/hash.h"]}
{"id": "C17", "title": "IPv4-mapped addresses are normalised consistently", "statement": "Simplifying an address is idempotent, an address and its widened form simplify to the same value, and simplifying never changes which host and port is meant.", "quantifier": "all addresses", "why_tests_cant": "Whole address space.", "anchors": ["src/peer.c: fastd_peer_address_simplify, fastd_peer_address_widen"]}
{"id": "C18", "title": "Peer lookup by address finds exactly the right peer", "statement": "After any sequence of address changes, insertions, removals and table growth, looking up an address yields the peer currently using that address, and nothing if there is none.", "quantifier": "all histories of peer address assignments, seeds and addresses", "why_tests_cant": "Depends on bucket collisions, table growth and the complete history.", "anchors": ["src/peer_hashtable.c: fastd_peer_hashtable_insert, fastd_peer_hashtable_remove, fastd_peer_hashtable_lookup, resize_hashtable"]}
{"id": "C19", "title": "No two peers own the same remote address", "statement": "At any time at most one enabled peer is associated with a given remote address.", "quantifier": "all histories of handshakes, address claims, resets, config reloads", "why_tests_cant": "Interleaving of claims by several peers.", "anchors": ["src/peer.c: fastd_peer_claim_address, reset_peer"]}
{"id": "C20", "title": "Addresses configured for a peer cannot be taken over", "statement": "An address that is statically configured as the remote of one enabled peer can not be claimed by another peer, even by a forced claim.", "quantifier": "all peer tables, claims and claim histories", "why_tests_cant": "Depends on the order of peers and who holds the address at the moment.", "anchors": ["src/peer.c: fastd_peer_claim_address, fastd_peer_owns_address"]}
{"id": "C21", "title": "MAC learning table is an exact map", "statement": "The MAC table behaves like a map from MAC address to the peer that most recently sent from that address; lookups never miss a live entry or return a wrong one; entries vanish exactly when stale for 5 minutes, or when their peer goes away.", "quantifier": "all histories of learning, lookups, cleanups and peer resets", "why_tests_cant": "Binary search over a table shaped by arbitrary histories.", "anchors": ["src/peer.c: fastd_peer_eth_addr_add, fastd_peer_find_by_eth_addr, fastd_peer_eth_addr_cleanup, reset_peer"]}
{"id": "C22", "title": "No table entry outlives its peer", "statement": "After a peer is reset or deleted, no MAC table entry and no address table entry refers to it any more.", "quantifier": "all histories of learning, claims, resets and deletions", "why_tests_cant": "A dangling reference is only visible in certain interleavings.", "anchors": ["src/peer.c: reset_peer, fastd_peer_delete, delete_peer", "src/peer_hashtable.c"]}
{"id": "C23", "title": "Frames go to exactly the right peers", "statement": "In TAP mode a unicast frame for a learned address goes only to that peer and never back to its source; other frames go to every established peer except the source, exactly once each; nothing is sent to a peer that is not established.", "quantifier": "all peer tables, MAC tables, source peers and frames", "why_tests_cant": "All combinations of table contents and frame headers.", "anchors": ["src/send.c: fastd_send_data, send_data_tap_single, send_all", "src/receive.c: fastd_handle_receive"]}
{"id": "C24", "title": "Handshake records survive encoding and parsing", "statement": "Parsing a handshake packet built by fastd yields exactly the records that were put in (last one wins for repeated types).", "quantifier": "all sequences of records of all types and lengths", "why_tests_cant": "Encode/parse inverse on an unbounded space.", "anchors": ["src/handshake.h: fastd_handshake_add, fastd_handshake_extend, fastd_handshake_add_uint", "src/handshake.c: parse_tlvs"]}
{"id": "C25", "title": "Handshake parsing is memory safe", "statement": "Whatever bytes arrive, parsing the records only reads inside the packet, terminates, and every record handed on lies completely within the packet.", "quantifier": "all byte strings", "why_tests_cant": "Every malformed input.", "anchors": ["src/handshake.c: parse_tlvs, fastd_handshake_handle", "src/handshake.h: fastd_handshake_tlv_len, fastd_handshake_tlv_data"]}
{"id": "C26", "title": "Numbers in handshake records round trip", "statement": "Unsigned numbers written into records with 1 to 4 bytes are read back unchanged whenever they fit, and a reader accepts shorter or longer encodings without reading out of bounds.", "quantifier": "all values and field widths", "why_tests_cant": "Endianness and width handling for all values.", "anchors": ["src/handshake.h: fastd_handshake_add_uint, as_uint*, fastd_handshake_add_uint8/16/..."]}
{"id": "C27", "title": "Method negotiation", "statement": "A method list put into a handshake is decoded to the same list; the initiator selects the first method of the responder's preference list that is also allowed for this peer locally, and reports failure iff there is no common method.", "quantifier": "all method lists and peer configurations", "why_tests_cant": "All pairs of configurations.", "anchors": ["src/handshake.c: create_method_list, parse_string_list, fastd_handshake_get_method_by_name, get_method"]}
{"id": "C28", "title": "Handshake packets respect the size limit", "statement": "Every handshake packet built fits the buffer allocated for it and does not exceed the maximum handshake size; the length field in the header always equals the size of the records.", "quantifier": "all record sequences, method lists and options", "why_tests_cant": "Accumulated size over all optional records.", "anchors": ["src/handshake.c: new_handshake, fastd_handshake_new_init, fastd_handshake_new_reply", "src/handshake.h: fastd_handshake_extend"]}
{"id": "C29", "title": "Handshake errors cannot cause reply storms", "statement": "An error reply received from the network is never answered by another packet, so two nodes can not bounce errors between each other forever.", "quantifier": "all packets", "why_tests_cant": "Absence of loops for every packet.", "anchors": ["src/handshake.c: fastd_handshake_handle, print_error, send_error, fastd_handshake_send_error"]}
{"id": "C30", "title": "Incompatible handshakes are refused with the right reason", "statement": "A handshake is passed to the key exchange only if mode, protocol, MTU (where relevant), and the mandatory records of its type are acceptable; otherwise the first violated check determines the error that is reported.", "quantifier": "all record sets and configurations", "why_tests_cant": "All combinations of present/missing/wrong records.", "anchors": ["src/handshake.c: check_records, check_mtu, fastd_handshake_handle"]}
{"id": "C31", "title": "Both ends derive the same keys", "statement": "If both parties run the key exchange with each other's public keys, both compute the same shared secret, the same handshake MAC key and the same session keys; binding all four public keys in the same order on both sides.", "quantifier": "all long-term and ephemeral secrets", "why_tests_cant": "Algebraic identity over all key pairs.", "anchors": ["src/protocols/ec25519_fhmqvc/handshake.c: make_shared_handshake_key, update_shared_handshake_key, establish, new_session"]}
{"id": "C32", "title": "A session is only established with an authenticated peer", "statement": "A session for a peer is set up only by a handshake packet addressed to our key, referring to one of our currently valid handshake keys, carrying a MAC that verifies under the key shared with exactly that peer, with a negotiated method and for a peer that may connect, and whose MTU is ours if it announces one.", "quantifier": "all handshake packets and daemon states", "why_tests_cant": "Every combination of forged or stale fields.", "anchors": ["src/protocols/ec25519_fhmqvc/handshake.c: fastd_protocol_ec25519_fhmqvc_handshake_handle, finish_handshake, handle_finish_handshake, establish"]}
{"id": "C33", "title": "A handshake key pair is used for at most one session per peer", "statement": "For one peer, two different sessions are never established from the same local handshake key pair, so session keys never repeat even if handshake packets are replayed.", "quantifier": "all histories of handshakes, replays, key renewals, resets and reloads", "why_tests_cant": "Replay of arbitrary old handshakes at arbitrary times.", "anchors": ["src/protocols/ec25519_fhmqvc/handshake.c: establish", "src/protocols/ec25519_fhmqvc/state.c: fastd_protocol_ec25519_fhmqvc_init_peer_state, maintenance"]}
{"id": "C34", "title": "Handshake keys expire on time", "statement": "New handshakes use a key at most 15 s old, and responses to a key more than 30 s old are no longer accepted; there are never more than two usable handshake keys; serial numbers strictly increase.", "quantifier": "all histories of clock advances and maintenance calls", "why_tests_cant": "Unbounded time.", "anchors": ["src/protocols/ec25519_fhmqvc/state.c: fastd_protocol_ec25519_fhmqvc_maintenance", "src/protocols/ec25519_fhmqvc/handshake.c: is_handshake_key_valid, is_handshake_key_preferred"]}
{"id": "C35", "title": "Session objects are never leaked or freed twice", "statement": "Across rekeying, superseding, resets and expiry each session object has at most one owner, is freed exactly once, and a peer has at most a current and an old session.", "quantifier": "all histories of establish/receive/send/reset events", "why_tests_cant": "Ownership moves between two slots depending on validity and timing.", "anchors": ["src/protocols/ec25519_fhmqvc/handshake.c: supersede_session, new_session, establish", "src/protocols/ec25519_fhmqvc/ec25519_fhmqvc.c: protocol_handle_recv, fastd_protocol_ec25519_fhmqvc_reset_peer_state"]}
{"id": "C36", "title": "Rekeying does not interrupt traffic", "statement": "During a rekey the node that has not yet seen the new session confirmed keeps sending with the old valid session, drops the old session as soon as the new one is confirmed, and packets of both sessions are accepted meanwhile.", "quantifier": "all interleavings of handshake and data packets of a session change", "why_tests_cant": "Message interleavings.", "anchors": ["src/protocols/ec25519_fhmqvc/ec25519_fhmqvc.c: use_old_session, protocol_send, protocol_handle_recv, check_session_refresh"]}
{"id": "C37", "title": "Peer group connection limits are respected", "statement": "For every peer group with a limit, the number of established peers in the group including its subgroups never exceeds the limit.", "quantifier": "all histories of establishment, disconnects, resets over all group trees", "why_tests_cant": "Nested limits under all histories.", "anchors": ["src/peer.c: fastd_peer_may_connect, count_established_group_peers, fastd_peer_set_established", "src/protocols/ec25519_fhmqvc/handshake.c"]}
{"id": "C38", "title": "Results of background jobs reach only the peer they were started for", "statement": "Peer identifiers are never reused and a lookup by identifier returns exactly the peer with that identifier or nothing if it has been deleted, so late DNS or verification results never reach another peer.", "quantifier": "all histories of peer creation/deletion", "why_tests_cant": "Unbounded histories; binary search in a changing table.", "anchors": ["src/peer.c: fastd_peer_add, fastd_peer_find_by_id, delete_peer", "src/async.c"]}
{"id": "C39", "title": "One peer entry per key", "statement": "After any sequence of configuration loads and dynamic additions the peer table never contains two entries with the same key; a key that is defined twice is disabled rather than connected.", "quantifier": "all sequences of peer definitions, reloads and dynamic peers", "why_tests_cant": "Histories of reloads.", "anchors": ["src/peer.c: fastd_peer_add", "src/config.c: configure_peers, fastd_config_load_peer_dirs", "src/protocols/ec25519_fhmqvc/ec25519_fhmqvc.c: find_peer"]}
{"id": "C40", "title": "No peer timer is ever missed", "statement": "After every event, each peer with a pending deadline (handshake, reset, keepalive) has its task scheduled no later than the earliest of its deadlines.", "quantifier": "all event histories", "why_tests_cant": "Timers are changed at many places; a missed re-schedule shows only for certain orders.", "anchors": ["src/peer.c: schedule_peer_task, fastd_peer_handle_task, fastd_peer_schedule_handshake, fastd_peer_set_established", "src/peer.h: fastd_peer_seen, fastd_peer_clear_keepalive"]}
{"id": "C41", "title": "Dead connections are detected", "statement": "An established peer from which no valid packet arrived for PEER_STALE_TIME is disconnected at the first task handling after that time, and not before.", "quantifier": "all histories of packets and clock advances", "why_tests_cant": "Unbounded time histories.", "anchors": ["src/peer.c: fastd_peer_handle_task", "src/peer.h: fastd_peer_seen"]}
{"id": "C42", "title": "Handshakes to an address are rate limited", "statement": "fastd never sends two initial handshakes to the same address for one peer within the minimum handshake interval.", "quantifier": "all histories of triggers", "why_tests_cant": "Depends on arbitrary sequences of triggers and address changes.", "anchors": ["src/peer.c: send_handshake, fastd_peer_handle_handshake_queue"]}
{"id": "C43", "title": "Unknown senders can not trigger unlimited handshakes", "statement": "After a handshake was triggered by a packet from an unknown address, further packets from this address do not trigger another one until the recorded interval has passed, unless the record was displaced when all slots for another address were in use.", "quantifier": "all packet sequences from any addresses at any times, any hash function", "why_tests_cant": "Hash-indexed, time-sliced table under arbitrary history.", "anchors": ["src/receive.c: backoff_unknown, handle_socket_receive_unknown"]}
{"id": "C44", "title": "Remotes are tried in turn", "statement": "The handshake task of a peer with several remotes and addresses cycles through all of them and never accesses a remote or address that does not exist.", "quantifier": "all peers (any number of remotes/addresses), all sequences of handshake timer events and DNS results", "why_tests_cant": "Index arithmetic under changing address lists.", "anchors": ["src/peer.c: handle_task_handshake, fastd_peer_handle_resolve, fastd_peer_get_next_remote"]}
{"id": "C45", "title": "Packets are dispatched by type and sender only as allowed", "statement": "A received UDP packet reaches session decryption only if it is a data packet from the address (and on the socket) of a peer that is allowed to send data; handshake packets are only processed as handshakes; everything else has no effect except a possible handshake towards the sender.", "quantifier": "all packets, source addresses, sockets and peer states", "why_tests_cant": "All combinations of first bytes, lengths, peer states.", "anchors": ["src/receive.c: handle_socket_receive, handle_socket_receive_known, handle_socket_receive_unknown, fastd_receive"]}
{"id": "C46", "title": "SHA-256 is computed correctly for every length", "statement": "fastd's hash function agrees with FIPS 180-4 SHA-256 for every message shorter than 2^29 bytes, for every split of blocks it supports.", "quantifier": "all messages", "why_tests_cant": "Padding cases and all data.", "anchors": ["src/sha256.c: sha256_list, copy_words, fastd_sha256, fastd_sha256_blocks"]}
{"id": "C47", "title": "HMAC-SHA256 and HKDF are computed correctly", "statement": "The MAC and key derivation functions agree with RFC 2104 and RFC 5869 for every 32-byte key, message and output length.", "quantifier": "all keys, messages, info strings and block counts", "why_tests_cant": "All inputs.", "anchors": ["src/sha256.c: hmacsha256_list, fastd_hmacsha256", "src/hkdf_sha256.c: fastd_hkdf_sha256_expand"]}
{"id": "C48", "title": "Both GHASH implementations are GHASH", "statement": "The table driven GHASH and the one using PCLMULQDQ agree with the NIST SP 800-38D definition for every key and message (with the length block as configured).", "quantifier": "all keys and messages", "why_tests_cant": "2^128 keys.", "anchors": ["src/crypto/mac/ghash/builtin/ghash_builtin.c: shr, mulH_a, ghash_init, ghash_digest", "src/crypto/mac/ghash/pclmulqdq/ghash_pclmulqdq_impl.c: gmul, fastd_ghash_pclmulqdq_digest"]}
{"id": "C49", "title": "UHASH agrees with RFC 4418", "statement": "The optimised UHASH arithmetic (modular reductions with lazy carries, skipped padding) agrees with RFC 4418 for every key and message up to 2^24 bytes, and never reads beyond the zero padded message.", "quantifier": "all keys and messages", "why_tests_cant": "Carry corner cases have negligible probability under random testing.", "anchors": ["src/crypto/mac/uhash/builtin/uhash_builtin.c"]}
{"id": "C50", "title": "MAC comparison accepts exactly equal values", "statement": "The constant-time comparison functions return true iff all bytes are equal.", "quantifier": "all byte strings", "why_tests_cant": "All inputs.", "anchors": ["src/crypto.h: secure_memequal, block_equal"]}
{"id": "C51", "title": "Key text format round trips", "statement": "A key printed in hexadecimal is parsed back to the same key, and only strings of exactly 64 hexadecimal digits are accepted as keys.", "quantifier": "all keys and strings", "why_tests_cant": "All inputs.", "anchors": ["src/protocols/ec25519_fhmqvc/ec25519_fhmqvc.c: read_key", "src/protocols/ec25519_fhmqvc/util.c: hexdump, print_hexdump"]}
{"id": "C52", "title": "Secret keys are divided exactly", "statement": "The secret key preparation succeeds exactly for keys that are multiples of 8 and yields exactly one eighth of the key.", "quantifier": "all 256-bit keys", "why_tests_cant": "All inputs.", "anchors": ["src/protocols/ec25519_fhmqvc/ec25519_fhmqvc.c: divide_key"]}
{"id": "C53", "title": "Configured methods are collected without duplicates", "statement": "The list of methods offered contains each method configured for any peer group exactly once; adding a method twice to a group has no effect; groups without own methods inherit those of their parent.", "quantifier": "all configuration trees", "why_tests_cant": "All trees and orders.", "anchors": ["src/config.c: fastd_config_method, collect_methods, configure_methods", "src/peer_group.h", "src/fastd.h: fastd_string_stack_*"]}
{"id": "C54", "title": "Config tokens do not depend on read boundaries", "statement": "The tokens delivered for a configuration file depend only on its contents, not on how the file is read in pieces; the scanner never reads beyond the data read so far.", "quantifier": "all files and all ways to split them into reads", "why_tests_cant": "Tokens straddling buffer boundaries at arbitrary positions.", "anchors": ["src/lex.c: advance, next, current, consume, fastd_lex and helpers"]}
{"id": "C55", "title": "Every keyword is recognised", "statement": "Binary search over the keyword table finds every keyword and rejects every other word.", "quantifier": "all words", "why_tests_cant": "All words; sortedness of the table under strcmp.", "anchors": ["src/lex.c: keywords, parse_keyword"]}
{"id": "C56", "title": "Verification load is bounded", "statement": "At most VERIFY_LIMIT verification commands run at the same time, and every finished verification makes its slot available again.", "quantifier": "all histories of verification starts and completions", "why_tests_cant": "Concurrent histories.", "anchors": ["src/verify.c: fastd_verify_peer, verify_peer, do_verify", "src/sem.h"]}
{"id": "C57", "title": "Log formatting never overruns its buffer", "statement": "Formatting a log message never writes outside the given buffer, whatever the format and arguments, and the logged text is always NUL-terminated.", "quantifier": "all formats, arguments and buffer sizes", "why_tests_cant": "All lengths of expanded arguments.", "anchors": ["src/log.c: fastd_vsnprintf, snprintf_safe, fastd_snprint_peer_address, fastd_logf"]}
{"id": "C58", "title": "Interface names are formed as configured and bounded", "statement": "The interface name computed for a peer expands the configured pattern once, is truncated to the system limit and always terminated; patterns that need a missing name or key are refused.", "quantifier": "all patterns, peer names and keys", "why_tests_cant": "All strings.", "anchors": ["src/iface.c: fastd_iface_format_name", "src/config.c: fastd_config_ifname"]}
{"id": "C59", "title": "Random delays stay in range", "statement": "Every randomised delay lies in its documented interval (handshake interval, rekey splay, backoff displacement index).", "quantifier": "all random values", "why_tests_cant": "All random outputs.", "anchors": ["src/fastd.h: fastd_rand", "src/peer.c: fastd_peer_schedule_handshake_default", "src/methods/common.c: fastd_method_common_init"]}
{"id": "C60", "title": "The event loop always makes progress", "statement": "Handling due tasks terminates: at a fixed time only finitely many tasks are run before control returns to packet processing.", "quantifier": "all peer tables and task queues", "why_tests_cant": "Non-termination arises from tasks rescheduling themselves at the current time.", "anchors": ["src/task.c: fastd_task_handle", "src/peer.c: fastd_peer_handle_task"]}
{"id": "C61", "title": "Different packets never use the same cipher IV", "statement": "For every cipher with an IV accepted by a method, different packet nonces are expanded to different IVs of exactly the cipher's IV length, never to the all-zero IV used for key setup, and with AES-CTR the counter blocks of different packets never overlap.", "quantifier": "all nonces, all IV lengths above 6, all block positions below 2^80", "why_tests_cant": "All pairs of 48-bit nonces.", "anchors": ["src/methods/common.h: fastd_method_expand_nonce", "src/methods/*/: iv_length checks"]}
{"id": "C62", "title": "Payloads survive encryption and decryption with every method", "statement": "For every method, encrypting any payload produces exactly the packet format of that method, and the other end of the session recovers exactly the payload from it; packets whose authentication tag does not match are refused; neither direction aborts or touches memory outside the packet buffers, including the unused bytes of the last block.", "quantifier": "all payloads, lengths, session states, ciphers and MACs", "why_tests_cant": "All lengths (partial last blocks), contents of unused buffer space, and all keys.", "anchors": ["src/methods/*/*.c: method_encrypt, method_decrypt", "src/buffer.h: fastd_buffer_zero_pad"]}
{"id": "C63", "title": "Packets wrapped in a control header are processed safely", "statement": "For every received UDP packet, with or without the 12-byte control header, all accesses to packet buffers stay within their storage and block accesses are 16-byte aligned.", "quantifier": "all packet lengths and kinds, all methods and MTUs of at least 1231 bytes", "why_tests_cant": "The over-read depends on the exact relation between packet length and MTU and is invisible without instrumentation.", "anchors": ["src/receive.c: handle_socket_receive", "src/buffer.h: fastd_buffer_zero_pad", "src/methods/*/*.c: method_decrypt"]}
{"id": "C64", "title": "Method names are unambiguous", "statement": "For any set of providers compiled in and asked in any order, a method name is accepted by at most one provider, as exactly the method the documented grammar gives it; different names always stand for different methods; no name overruns the buffers used while parsing it, and only the empty name leads to undefined behaviour (an array of size 0).", "quantifier": "all names, all sets and orders of providers, all sets of available ciphers", "why_tests_cant": "Names are arbitrary strings and the set of providers and ciphers is chosen at compile time; tests only try a few names.", "anchors": ["src/methods/methods.c.in: fastd_method_create_by_name", "src/methods/*/*.c: method_create_by_name", "src/crypto/cipher/ciphers.c.in: fastd_cipher_info_get_by_name"]}
{"id": "C66", "title": "Reloading the configuration takes effect and does not disturb anything else", "statement": "After start and after every reload, the configured peers are exactly those defined now, with the options of their definition; our own key is never a peer; connections to peers whose definition did not change survive, as do dynamic peers without definition.", "quantifier": "all definitions, all executions with any number of reloads", "why_tests_cant": "Depends on the sequence of definitions of the same key seen over time, interleaved with traffic.", "anchors": ["src/config.c:load_peers/fastd_config_load_peer_dirs", "src/peer.c:fastd_peer_add", "src/peer.c:peer_configs_equal"]}
{"id": "C65", "title": "The daemon never aborts on internal assertions or uses freed peers, sessions or sockets", "statement": "In no state reached by any sequence of packets, timers, DNS results, verification results and reloads does handling the next event trigger an internal assertion (exit_bug), access a peer, session, socket, remote or array element that does not exist, or loop forever.", "quantifier": "all configurations, all histories of events, all contents of packets", "why_tests_cant": "Use-after-free conditions depend on long histories (claiming addresses, closing sockets, deleting peers while requests are running) that tests do not enumerate.", "anchors": ["src/peer.c", "src/receive.c", "src/send.c", "src/resolve.c", "src/verify.c", "src/protocols/ec25519_fhmqvc/handshake.c"]}
{"id": "C67", "title": "What is written in the configuration is what the scanner reads", "statement": "For each sequence of keywords, quoted strings, punctuation characters, numbers and IPv4 and IPv6 addresses (with or without interface name), with any white space and comments of all three kinds before, between and after them (at least some between two items neither of which is a punctuation character), the scanner returns exactly these tokens and then end of file, whatever the sizes of the reads; each string without NUL can be written by putting a backslash before each quote and backslash.", "quantifier": "all sequences of items of any length, all strings and comments, all splits of the file into reads", "why_tests_cant": "The strings and the positions of the read boundaries are unbounded; a test fixes some of them.", "anchors": ["src/lex.c:fastd_lex", "src/lex.c:parse_string", "src/lex.c:parse_number", "src/lex.c:parse_keyword"]}
{"id": "C68", "title": "Events are dispatched only to existing objects", "statement": "In one round of fastd_poll_handle, no socket or interface object is used after handling an earlier event of the round has closed and freed it; each descriptor for which something is reported is handled exactly once unless the round ends because the set of descriptors changed.", "quantifier": "all sets of registered descriptors, all answers of the system, all reactions of the handlers (opening and closing any descriptors)", "why_tests_cant": "Which events fall into the same round depends on timing; a test cannot enumerate the combinations of events and reactions.", "anchors": ["src/polling.c:fastd_poll_handle", "src/polling.c:fastd_poll_fd_register", "src/polling.c:fastd_poll_fd_close", "src/polling.c:handle_fd", "src/peer.c:free_socket"]}
{"id": "C69", "title": "Waiting never goes past the next task", "statement": "When fastd waits for events, it waits without limit only if no task is scheduled, and otherwise at most until the next task is due, for all distances of the next task (also those which do not fit into an int); the wait is exact below 2^31 ms.", "quantifier": "all times and timeouts", "why_tests_cant": "The conversion to int matters only for distances beyond 24 days.", "anchors": ["src/polling.c:task_timeout"]}
{"id": "C70", "title": "Configuration files have one meaning", "statement": "Every sequence of tokens can be read in at most one way as a configuration, group or peer file; the parser accepts exactly the files with a derivation in the grammar and finds the derived statements, however the text is spaced, commented and read in pieces; the keywords of the scanner are exactly those of the grammar; every list of statements can be written down.", "quantifier": "all files, all ways of reading them, all statement lists", "why_tests_cant": "Ambiguities of a grammar show up only for particular combinations of optional parts; tests try few of them.", "anchors": ["src/config.y", "src/lex.c", "src/config.c:fastd_config_read"]}
{"id": "C71", "title": "Default bind addresses", "statement": "In every accepted configuration, outgoing IPv4 and IPv6 connections use the last usable bind address marked as default for the family, or the first usable one if none is marked, also when `any` stands for two sockets.", "quantifier": "all configurations", "why_tests_cant": "Depends on the order and the marks of any number of bind statements in any number of files.", "anchors": ["src/config.c:fastd_config_bind_address", "src/config.y:fastd_config_handle_bind_address"]}
{"id": "C72", "title": "Included files, groups and scopes", "statement": "A configuration is accepted if and only if it and its included files (at most 10 levels) can be read, all statements are valid, and peer keys are readable and distinct; then groups, peers and settings are those of the statements: included files stand for their statements, relative names and command directories belong to the file they are used in, each statement affects the innermost group around it only, the last value of a setting counts, methods keep the order of first mention, and the working directory is restored.", "quantifier": "all configurations, all file systems in which directories can be left again", "why_tests_cant": "Unbounded nesting of groups and files; state is passed through a mutable parser state and the process-wide working directory.", "anchors": ["src/config.c:fastd_config_read", "src/config.c:fastd_config_peer_group_push", "src/config.y", "src/peer.c:fastd_peer_add"]}
{"id": "C73", "title": "A broken peer file has no further effect", "statement": "When peer directories are read, at the start or on reload, exactly the peers described by the regular files not starting with `.` and not ending with `~` are found; files with errors do not affect other files, settings, groups or the working directory, and do not end fastd.", "quantifier": "all directories and files", "why_tests_cant": "Needs all possible broken files, including those that include other files or themselves.", "anchors": ["src/config.c:read_peer_dir", "src/config.c:read_peer_dirs", "src/config.c:fastd_config_read"]}
{"id": "C74", "title": "The packet mark is the configured one", "statement": "The mark used for outgoing packets is the number given by the last packet mark statement.", "quantifier": "all configurations and marks", "why_tests_cant": "The number is parsed with 64 bits and stored with 32.", "anchors": ["src/config.y:packet_mark", "src/fastd.h:packet_mark"]}
{"id": "C75", "title": "Waiting for commands as documented", "statement": "fastd waits for the end of a command of a peer group if and only if the manual says so: up and down by default, other events only with the keyword sync, never with async.", "quantifier": "all configurations, events, keywords and occasions on which commands are executed", "why_tests_cant": "Whether fastd waits depends on the configuration, on a parameter of each call site and on the kind of interface.", "anchors": ["src/shell.c:fastd_shell_command_exec", "src/peer.c:fastd_peer_exec_shell_command", "src/fastd.c:on_up", "src/config.y", "doc/source/manual/config.rst"]}
{"id": "C76", "title": "Command line options mean the statements documented for them", "statement": "A command line is accepted if and only if it consists of known options with their arguments, the files named by them can be read, and all resulting statements are valid. The configuration is then the one of these statements in their order; no option is silently ignored and none makes fastd use memory that has been freed.", "quantifier": "all argument lists, files, standard inputs and build options", "why_tests_cant": "Options, files and included files interact through the same state; arguments have an own syntax for numbers, addresses and ports.", "anchors": ["src/options.c:fastd_config_handle_options", "src/options.c:option_bind", "src/options.c:option_interface", "src/options.def.h", "src/config.c:fastd_configure"]}
{"id": "C77", "title": "fastd starts exactly with a complete configuration, and with the methods, user and groups it names", "statement": "fastd starts if and only if the command line and its files are accepted, the secret is a valid key, there may be peers (one is configured, or there is a peer directory or a verify command), all methods in use exist (null if the root group has none), the user and group exist, and offloading is used with suitable settings. The running process has the user and groups that are configured, a table with each needed method exactly once, and enough headroom for all of them; every group uses the methods and commands of the innermost group around it that has any. The option --verify-config reports exactly the configurations with which fastd starts.", "quantifier": "all command lines, files, users, groups, sets of methods and trees of groups", "why_tests_cant": "The groups are a tree of pointers built while parsing, walked recursively by several functions; the checks depend on the order of options, files and defaults.", "anchors": ["src/fastd.c:init_config", "src/config.c:fastd_config_check", "src/config.c:config_check_base", "src/config.c:configure_user", "src/config.c:configure_methods", "src/config.c:configure_method_parameters", "src/config.c:fastd_config_verify", "src/peer_group.h:fastd_peer_group_lookup"]}
{"id": "C78", "title": "All peer directories of a configuration are read, each for its group", "statement": "When peer directories are read, at the start and after SIGHUP, then either fastd exits because of an include cycle (C73), or the peers added are exactly those described by files in the peer directories of all groups: each directory is read once for every statement naming it, its peers belong to the group of that statement, and neither the settings nor the current directory change.", "quantifier": "all configurations, trees of groups and contents of directories", "why_tests_cant": "The number of groups and their nesting is unbounded; a group that is skipped or visited twice is only seen with particular trees.", "anchors": ["src/config.c:peer_dirs_read_peer_group", "src/config.c:read_peer_dirs", "src/config.c:fastd_config_load_peer_dirs"]}
{"id": "C79", "title": "The privileges that are kept are those needed later, and no more", "statement": "fastd switches to the configured user and group, and drops the capabilities it does not need any more, at the time documented for 'drop capabilities'. Afterwards it can still do everything it does while running (open sockets for new connections with device and packet mark, create interfaces for peers found later, offload), and it has no capability that none of these operations needs. Started by root, lack of privileges never prevents the start.", "quantifier": "for all configurations and command lines, all credentials of the starting process (users, groups, capability sets), with and without a pid file, all later operations", "why_tests_cant": "Needs root, several users, and combinations of modes, bind addresses, marks and drop settings; a missing capability only shows when a later connection needs it, and one too many never shows.", "anchors": ["src/capabilities.c:25-143", "src/fastd.c:138-166", "src/fastd.c:225-315", "src/fastd.c:460-541", "src/socket.c:20-158", "src/socket.c:226-253", "src/config.c:595-612", "src/peer.c:411-424", "doc/source/manual/config.rst:92-107"]}
{"id": "C80", "title": "Commands run by fastd find the documented environment", "statement": "A shell command run by fastd finds all of the environment variables the manual documents for it, with the values that belong to the peer, interface and addresses it is about, in the documented form; variables that have no value on this occasion are not set even if fastd inherited them; NOTIFY_SOCKET is never passed on and all other variables are inherited. The command runs in its directory with no file descriptor of fastd and no signal blocked. An unknown peer is accepted if and only if the on verify command could be run in this way and ended with exit status 0.", "quantifier": "for all occasions, peers (named, unnamed, unknown; with and without interface or offloading), addresses of both families including link-local ones with any interface name, environments and descriptors of fastd, and all failures of fork, chdir, exec and wait", "why_tests_cant": "Values depend on combinations of address family, scope, MTU, offloading and what fastd inherited; the buffers are sized so that only the longest address with the longest interface name fills them.", "anchors": ["src/shell.c:20-178", "src/peer.c:23-124", "src/protocols/ec25519_fhmqvc/util.c:57-69", "src/protocols/ec25519_fhmqvc/handshake.c:488-494", "src/fastd.c:178-221", "src/verify.c:26-130", "doc/source/manual/config.rst:224-267"]}
{"id": "C81", "title": "Child processes are collected, each by whom it belongs to", "statement": "Every process started for a shell command is waited for by exactly one party: the main loop for asynchronous commands, the waiting main thread for synchronous ones, the verify thread for its command. No child is forgotten (an ended asynchronous command is collected once its signal has been handled, also if it ends while others are being collected), waitpid never fails, and collecting never blocks.", "quantifier": "for all interleavings of the main thread, verify threads, ending children and signals, any number of commands, and any reuse of process IDs", "why_tests_cant": "Depends on the timing of children, signals and threads, and on process IDs being reused; lost zombies only show after a long time.", "anchors": ["src/shell.c:95-178", "src/fastd.c:50-107", "src/fastd.c:546-598", "src/verify.c:26-77", "src/polling.c:97-104"]}
{"id": "C82", "title": "Implementations of ciphers and MACs are those configured, and can run on the processor", "statement": "A cipher or mac statement is accepted if and only if the implementation is compiled in for this cipher or MAC and supported by the processor; what is used is the implementation of the last statement, or by default the first supported one; an unsupported implementation is never used, and a method whose cipher was found always gets an implementation.", "quantifier": "for all tables of ciphers and implementations, all processors (values of CPUID), all sequences of statements", "why_tests_cant": "Needs processors lacking features and builds with different sets of implementations; using an unsupported one is a crash on other machines only.", "anchors": ["src/crypto/cipher/ciphers.c.in:18-106", "src/crypto/mac/macs.c.in:18-106", "src/cpuid.h:17-55", "src/crypto/mac/ghash/pclmulqdq/ghash_pclmulqdq.c:19-23", "src/crypto/cipher/salsa20/xmm/salsa20_xmm.c:41-43", "src/config.c:107-121", "doc/source/manual/config.rst:67-90"]}
{"id": "C83", "title": "Compatible peers connect", "statement": "If two daemons are configured with each other's keys, the same protocol, mode and MTU and a common method, and one of them has sent the first packet of a handshake, then the other answers it; if the answer arrives within 15 seconds, whatever the daemons do in between, the first one establishes the connection and replies; if the reply arrives within 15 seconds the second one establishes it too. Both sessions have the same key and use the first method in the list of the responder that the initiator allows, and packets are sent to the addresses the handshake came from.", "quantifier": "for all configurations, all reachable states of both daemons, all events in between that take less than 15 s, all rewriting of addresses and ports on the way", "why_tests_cant": "Needs two daemons with arbitrary histories and arbitrary interleavings of events between the three packets; a failure shows up only as a connection that is not set up in particular circumstances.", "anchors": ["src/protocols/ec25519_fhmqvc/handshake.c:176-745", "src/handshake.c:99-538", "src/receive.c:164-329", "src/peer.c:340-1000"]}
{"id": "C84", "title": "Payload gets through unchanged and once", "statement": "A data packet that arrives from the address of an established peer with a valid session is decrypted with the old session if that is still valid and accepts it, and with the current session otherwise. Its payload is written to the interface exactly once, unless the peer has no interface, the payload is empty (a keepalive) or, in TAP mode, shorter than an ethernet header; in these cases, when no session accepts the packet and when the session has expired, nothing is written. Nothing else is ever written to an interface. A packet read from an interface is encrypted and sent to the address of every established peer it is meant for. Hence what is read from the interface of one daemon is written unchanged to that of another one when the datagram arrives.", "quantifier": "all reachable states of both daemons, all packets and payloads, any addresses and sockets, any sessions", "why_tests_cant": "Tests send a few packets over a connection that was just set up; they do not cover rekeying, forwarding, several peers, expired sessions and arbitrary payload at once.", "anchors": ["src/receive.c:164-330", "src/send.c:60-227", "src/protocols/ec25519_fhmqvc/ec25519_fhmqvc.c:60-230"]}
{"id": "C85", "title": "Shutting down gives back everything of every peer, and runs on-disestablish once for each connection that was up", "statement": "Whatever happened before, deleting the peers on shutdown succeeds without error; afterwards no peer, no dynamic socket of a peer, no method session, no entry in the table of addresses and no MAC address of a peer is left; the command on-disestablish is run exactly once for each peer that was established and for nobody else, nothing else is done, and in the end on-disestablish has been run for every peer as often as on-establish.", "quantifier": "For every state reached from any start by any sequence of events, in every environment (any peers, packets, timing, results of system calls).", "why_tests_cant": "A test shuts down from a few states; a resource leaked, or a command left out, in one of the states peers can be in (resolving, handshake, session superseded, claimed address, dynamic peer) shows only if the test happens to be there.", "anchors": ["src/fastd.c:601-604", "src/peer.c:292-337", "src/peer.c:471-486", "src/peer.c:662-665"]}
{"id": "C86", "title": "on-establish and on-disestablish alternate for every peer", "statement": "The commands run for a peer are on-establish, on-disestablish, on-establish and so on, never one of them twice in a row; a peer is established if and only if on-establish has been run for it once more often than on-disestablish.", "quantifier": "For every state reached from any start by any sequence of events, in every environment, and every peer, including dynamic peers and peers deleted on reload.", "why_tests_cant": "Scripts that add and remove addresses or routes depend on the pairing in every history; tests only see a few histories, and the state is changed in seven places of the code.", "anchors": ["src/peer.c:292-337", "src/peer.c:830-883", "src/peer.c:106-120"]}
{"id": "C87", "title": "Signals are neither lost nor answered twice, and end the process in order", "statement": "A SIGHUP, SIGUSR2 or SIGCHLD sent at any time stays pending or noted until a reload, reset of all peers, or collecting of children has begun after it; once delivered it is answered before the next iteration of the main loop. Each of these has a signal as its cause, and there are never more of them than signals. After SIGTERM, SIGQUIT or SIGINT has been delivered no iteration of the main loop begins; the process cleans up exactly once, and then ends by that signal. The process never gets to the place marked \"Should not be reached\".", "quantifier": "For every interleaving of signals sent, signals delivered and steps of the main thread.", "why_tests_cant": "Lost signals depend on the instant at which a signal arrives; tests cannot place signals at every point between two system calls, nor two signals in every order.", "anchors": ["src/fastd.c:48-110", "src/fastd.c:566-598", "src/fastd.c:613-674", "src/polling.c:100-156"]}
{"id": "C88", "title": "The status socket tells the truth", "statement": "Whenever a client connects to the status socket, the status can be made without changing the state and without writing outside of a buffer or truncating a text. It has exactly one entry for each enabled peer, under its key in hexadecimal; the entry gives the name of the peer, its address and port, its interface, and a connection if and only if it is established, with the time since then, the method the next packet for the peer will be encrypted with, and in TAP mode the MAC addresses learnt from this peer. No MAC address is listed twice. The client gets the whole text unless writing fails, and a beginning of it otherwise.", "quantifier": "For every state reached from any start by any sequence of events, in every environment, all contents of the buffers before, and all results of write.", "why_tests_cant": "Monitoring relies on the status in every state of the daemon, in particular during a change of sessions, when two methods are in use; the sizes of the buffers matter for the longest addresses only.", "anchors": ["src/status.c:35-57", "src/status.c:91-190", "src/log.c:35-74", "src/protocols/ec25519_fhmqvc/ec25519_fhmqvc.c:98-106", "src/protocols/ec25519_fhmqvc/ec25519_fhmqvc.c:206-214"]}
{"id": "C89", "title": "Sockets are bound as configured, and failures leave nothing open", "statement": "Opening a socket for an address either yields a descriptor that was not in use, with a socket of the family of the address, bound to exactly this address (for link-local addresses on the configured interface, given by name or number; `any` is both families unless no IPv6 socket can be created), restricted to IPv6 if and only if the address is an IPv6 one, with packet mark, interface, path MTU discovery and packet information set as configured; or no descriptor is left open and none is changed. If fastd starts, each configured address without a random port has a socket of its own in the order of the configuration. A socket opened for a peer is bound to the default address of the peer's family, and can send to this family. A failure to open a socket for a peer is not fatal.", "quantifier": "For all addresses, compile-time options, sets of open descriptors, and all results of all system calls.", "why_tests_cant": "Each of about ten system calls may fail, on each of the paths for three kinds of addresses; what is leaked or left unset then is invisible to a test that has no way to make the calls fail.", "anchors": ["src/socket.c:22-169", "src/socket.c:184-210", "src/socket.c:213-252"]}
{"id": "C90", "title": "fastd --daemon tells the truth about the start, and everything happens once and in order", "statement": "With --daemon, the command exits with status 0 only if the daemon has bound all addresses, opened its interface, run on-pre-up and written its PID file, and with another status only if there is no daemon (or a system call of the command itself failed); it never hangs as long as the daemon's initialisation goes on, and does not wait for anything the daemon does after having reported. Exactly one process does the initialisation, it is not a session leader, and nothing is done twice. On-pre-up, opening the interface, on-up, the main loop, on-down, closing the interface and on-post-down follow in this order, privileges are given up before the main loop. When the status is 0, the daemon enters its main loop.", "quantifier": "For all configurations, all interleavings of the three processes, all failures of system calls and actions, and processes being killed at any time.", "why_tests_cant": "Service managers rely on the exit status; the interleavings of three processes and a pipe with failures at each point cannot be enumerated by tests.", "anchors": ["src/fastd.c:318-361", "src/fastd.c:439-541", "src/fastd.c:613-674"]}
{"id": "C91", "title": "Results of resolver and verifier threads reach the main thread unchanged, once and in order", "statement": "Host names are resolved and on-verify commands are run by separate threads. Whatever the interleaving of these threads, the signal handler and the main thread, the main thread is told exactly what the threads have sent: for a host name all IPv4 and IPv6 addresses found (IPv4 addresses mapped to IPv6 as IPv4), in order, and no others; for a verification the result of the command with the peer, socket, addresses and handshake it was started for. Each result arrives at most once, in the order of sending; none arrives which was not asked for; none is missing unless the kernel has refused the datagram. No buffer is exceeded and no uninitialised byte is used or sent, for any number of addresses. At most 32 verification commands run at a time, and no place is ever lost.", "quantifier": "all sequences of requests, answers of getaddrinfo, results of commands, signals, lost datagrams, failing thread creation and all interleavings", "why_tests_cant": "Depends on thread interleavings, on answers of DNS servers with any number and kind of addresses, and on the layout of structures passed as bytes.", "anchors": ["src/async.c:21-140", "src/async.h:21-49", "src/resolve.c:22-126", "src/verify.c:51-131", "src/peer.c:520-529", "src/polling.c:53-55"]}
{"id": "C92", "title": "The daemon keeps running", "statement": "With one TUN/TAP interface for all peers and bound sockets for both IP versions, no event ends the process: whatever packets arrive from anyone, whatever timers, resolver and verifier results, configuration reloads and signals happen in whatever order, handling the event finishes successfully and the daemon is ready for the next one. Starting fails at most because the main configuration is wrong. No socket is ever opened for a single peer. (If sockets or interfaces are opened for single peers, a failure to open one ends the whole process.)", "quantifier": "all configurations of peers, all environments with a common interface and two bound sockets, all reachable states, all events (any packet content, any sender), all random choices; failing system calls other than opening sockets and interfaces (read, epoll_wait, malloc, random numbers) are not modelled", "why_tests_cant": "Tests run some packets and timings; that no sequence of events at all ends the process needs an invariant over all executions.", "anchors": ["src/peer.c", "src/socket.c:33-42", "src/iface.c:98-100", "src/receive.c", "src/task.c", "src/async.c"]}
{"id": "C93", "title": "Netlink requests for L2TP offloading say exactly what is meant", "statement": "Each request that fastd sends to the kernel for L2TP offloading (family lookup, creating a tunnel over the peer's socket, creating, querying and deleting a session) is a well-formed Netlink message: read as described by the kernel headers, it contains exactly the command, the connection ID, the descriptor and the interface name it was made for, the next sequence number, and asks for an acknowledgement. No byte of it depends on what was on the stack before.", "quantifier": "all connection IDs, descriptors, families, sequence numbers, interface names of up to 15 characters, and all previous contents of the buffer", "why_tests_cant": "The kernel is needed for tests, and only some values can be tried; stack contents and padding are not under the control of a test.", "anchors": ["src/offload/l2tp/l2tp.c:113-132", "src/offload/l2tp/l2tp.c:149-253", "src/dep/libmnl/src/nlmsg.c:81-111", "src/dep/libmnl/src/attr.c:409-510"]}
{"id": "C94", "title": "Netlink answers are read safely", "statement": "Whatever bytes a datagram at the Netlink socket contains, handling it finishes and accesses no byte outside of the receive buffer; the interface name read from it always fits its array and is terminated.", "quantifier": "all contents of the datagram and of the rest of the buffer, all sequence numbers", "why_tests_cant": "Needs all malformed messages: lengths at the limits of 16- and 32-bit integers, truncated attributes, unterminated strings.", "anchors": ["src/dep/libmnl/src/callback.c:19-95", "src/dep/libmnl/src/attr.c:39-270", "src/dep/libmnl/src/nlmsg.c:152-232", "src/offload/l2tp/l2tp.c:58-110", "src/offload/l2tp/l2tp.c:199-213"]}
{"id": "C95", "title": "A Netlink request has the result that the kernel has reported for it", "statement": "The result of a request is success if and only if the kernel has acknowledged it with 0; otherwise errno is the reported error. The family number or interface name is that of the data sent with the answer. All answers are consumed, so that the next request is not confused by them. A request that cannot be sent, or whose answer cannot be received, is reported as failed.", "quantifier": "all requests, any number of data messages with any attributes before the acknowledgement, all error codes, failures of send and receive", "why_tests_cant": "The kernel decides how many messages it sends and when calls fail; tests see a single kernel in good conditions.", "anchors": ["src/offload/l2tp/l2tp.c:58-95", "src/offload/l2tp/l2tp.c:113-140", "src/offload/l2tp/l2tp.c:199-236", "src/dep/libmnl/src/callback.c:19-95"]}
{"id": "C96", "title": "Offload sessions are set up completely or not at all", "statement": "Setting up an offloaded session for a peer either yields a session whose socket is new, bound to the local address and interface of the peer's session and connected to the peer's address, for which the kernel has confirmed tunnel and session under the same nonzero ID, and whose interface, named by the kernel, has got the peer's MTU; or nothing is left behind: the socket is closed, and if the kernel had created a session, it has been asked to delete it. IDs in use are tried again with others. Ending a session closes its socket and no other one and asks the kernel to delete the session. If the address of the peer changes, the socket is connected to the new address, unless the local address has changed.", "quantifier": "all peers, all answers of a kernel that keeps to its interface with any errors for any request, all results of socket calls, connect and setting the MTU, any number of IDs in use, all states of open sockets", "why_tests_cant": "The clean-up after each failing step, with a real kernel, cannot be triggered by tests; leaked sockets or sessions show up only after a long time.", "anchors": ["src/offload/l2tp/l2tp.c:142-253", "src/offload/l2tp/l2tp.c:324-439", "src/socket.c:213-289"]}
{"id": "C97", "title": "fastd starts with offloading only if offloading works", "statement": "If the initialisation of L2TP offloading succeeds, then the kernel has named the L2TP family, and has confirmed the creation of a tunnel and an Ethernet session in it, and the deletion of the session; the socket used for this has been closed, and no answer is left in the queue.", "quantifier": "all kernels that keep to the Netlink interface, with all errors, and all failures of send", "why_tests_cant": "Kernels without L2TP or without pseudowire support, and failing calls, are needed to test this.", "anchors": ["src/offload/l2tp/l2tp.c:113-140", "src/offload/l2tp/l2tp.c:260-309"]}
{"id": "C98", "title": "The local address of a packet is the one it was sent to", "statement": "When a datagram arrives, the local address used from then on is the destination address that the kernel reports for it, with the port of the socket; interfaces belong to link-local addresses only, and IPv4 addresses are the same on IPv4 and IPv6 sockets. Other control messages do not matter. Without this information the datagram is ignored. Control data are never read beyond their end.", "quantifier": "all control messages in any number and order, all contents of the control buffer for safety", "why_tests_cant": "The control messages depend on the kernel, on socket options and on the kind of socket.", "anchors": ["src/receive.c:24-71", "src/receive.c:246-286"]}
{"id": "C99", "title": "Packets leave from and to the right addresses and are counted once", "statement": "A packet is passed to the kernel unchanged, addressed to the given remote address (in IPv6 notation on IPv6 sockets), with a request for the given local address that the kernel understands; replies to a received packet ask for the address this packet was sent to. If the kernel refuses the local address, the packet is sent once more without it. Each packet is counted exactly once, as sent, dropped or failed, according to the last attempt.", "quantifier": "all sockets, local and remote addresses, data, peers and errors of sendmsg", "why_tests_cant": "Requires hosts with several addresses, and addresses that vanish at run time.", "anchors": ["src/send.c:24-155", "src/peer.h:286-298"]}
{"id": "C100", "title": "Opening and closing TUN/TAP interfaces leaves the system as it was", "statement": "An interface that has been opened has the configured name, type and MTU. If opening fails at any point, and when the interface is closed, no descriptor stays open, interfaces that existed before still exist, and interfaces that fastd has created vanish.", "quantifier": "all modes, names and MTUs, all existing interfaces, all failures of system calls, on Linux and FreeBSD", "why_tests_cant": "Requires root privileges, different systems, and failures of ioctl calls.", "anchors": ["src/iface.c:58-130", "src/iface.c:164-298", "src/iface.c:540-585"]}
{"id": "C101", "title": "Packets pass the interface unchanged", "statement": "A packet that the kernel routes to the interface is handed to the peers unchanged if it is not larger than the MTU allows, and a packet received from a peer is written to the interface unchanged, marked with the right address family where the system needs this.", "quantifier": "all modes, MTUs and packets, systems with and without address family header", "why_tests_cant": "Requires different operating systems, and packets of all sizes.", "anchors": ["src/iface.c:42-46", "src/iface.c:427-478"]}
{"id": "C102", "title": "The status socket belongs to one process", "statement": "However many instances of fastd are started with the same status socket, in whatever order their system calls happen and however they end: at most one of them uses the socket; while it listens, the path leads to its socket and no other instance removes or replaces it; an instance that is refused changes nothing; a process that exits or closes the socket leaves none behind; after all have ended, even by being killed, the next start succeeds despite an old socket. The process continues with the user and group it had before the socket was set up.", "quantifier": "all interleavings of the system calls of any number of processes, all failures of these calls, all ways to end; all user and group IDs", "why_tests_cant": "Races between instances that start and end depend on the order of single system calls; tests see a few orders.", "anchors": ["src/status.c:193-305", "src/fastd.c:497"]}
{"id": "C103", "title": "Generated keys can be used", "statement": "For all random bytes, --generate-key prints a secret and a public key as 64 hexadecimal digits each (only the secret if the output is to be machine-readable). fastd starts with this secret, --show-key prints the same public key for it, and every other instance accepts this public key as that of a peer. Two instances configured with each other's printed keys compute the same keys in every handshake. If there are not enough random bytes, nothing is printed. --show-key prints a key exactly for the secrets that fastd starts with: 64 hexadecimal digits that denote a multiple of 8.", "quantifier": "all random bytes, all secrets, all curves and implementations that satisfy the laws of the group", "why_tests_cant": "Tests cover single keys; that no generated key is ever refused by either side needs the arithmetic of the group.", "anchors": ["src/protocols/ec25519_fhmqvc/util.c:18-54", "src/fastd.c:419-435", "src/protocols/ec25519_fhmqvc/ec25519_fhmqvc.c:18-74", "src/random.c:41-59"]}
{"id": "C104", "title": "Interfaces of peers are announced in the right order", "statement": "Whatever happens to a peer (resets, changes of its configuration, sessions with offloaded and other methods, failures): each interface and each offloaded session that is made for it is announced by `on up` with its name once it exists, and by `on down` with the same name before it is removed; there are never two at a time; `on establish` and `on disestablish` are told the interface in use; nothing is left when the peer is deleted. After a session has been set up, the peer has exactly one of the shared interface, an own one and an offloaded one, and the last exactly if its method is offloaded.", "quantifier": "all sequences of resets, configuration changes and session set-ups with all results of opening interfaces and offloading sessions, for all configurations accepted at start-up", "why_tests_cant": "The order of commands depends on long histories of a peer including failures and changes between methods, which tests do not enumerate.", "anchors": ["src/peer.c:60-111", "src/peer.c:292-337", "src/peer.c:371-443", "src/peer.c:471-487", "src/peer.c:652-665", "src/peer.c:830-885"]}
{"id": "C105", "title": "Log messages go to the configured destinations and do not reveal hidden addresses", "statement": "A message is written to stderr exactly if the log is not yet set up or its level is included in the level for stderr, and to syslog exactly if its level is included in that for syslog; levels of syslog are in the same order. If IP or MAC addresses are to be hidden, what is written and where does not depend on these addresses, for all formats that print addresses of hosts with %I.", "quantifier": "all formats, arguments, levels and configurations; for hidden addresses, all pairs of messages that differ in addresses only", "why_tests_cant": "That the output does not depend on an address is a statement about all pairs of executions.", "anchors": ["src/log.c:35-74", "src/log.c:150-192", "src/log.c:207-280"]}
{"id": "C106", "title": "The SSE2 implementations of Salsa20 and Salsa20/12 compute these ciphers", "statement": "For every key, nonce and message of up to 2^38 bytes, encrypting with the assembly implementation for x86-64, in place or to other memory, ends, accesses nothing outside of message, result, key, nonce and its stack frame, leaves the registers of the caller as they were, and gives the message combined with the stream of Salsa20 or Salsa20/12 as specified by Bernstein. So decrypting restores the message.", "quantifier": "all keys, nonces, messages, lengths up to 2^38 bytes, initial contents of registers and stack, and both placements of the result", "why_tests_cant": "Which of the code paths (four blocks at a time, single blocks, part of a block) and lanes are used depends on the length; wrong constants, rotations or orders of words can only be excluded for all inputs by proof, and test vectors cover few lengths.", "anchors": ["src/crypto/cipher/salsa20/xmm/salsa20_amd64_xmm6.s:342-4720", "src/crypto/cipher/salsa2012/xmm/salsa2012_amd64_xmm6.s:342-4720", "src/crypto/cipher/salsa20/xmm/salsa20_xmm.c:46-66"]}
{"id": "C107", "title": "The 32-bit SSE2 implementations of Salsa20 and Salsa20/12 compute these ciphers", "statement": "For every key, nonce and message of less than 2^32 bytes, encrypting with the assembly implementation for 32-bit x86, in place or to other memory, ends, accesses nothing outside of message, result, key, nonce and its stack frame, leaves the registers of the caller as they were, and gives the message combined with the stream of Salsa20 or Salsa20/12 as specified by Bernstein. So 32-bit and 64-bit hosts understand each other.", "quantifier": "all keys, nonces, messages, lengths below 2^32, initial contents of registers and stack, and both placements of the result", "why_tests_cant": "Most words live in the stack frame here, and move between places in every round; which code paths and lanes are used depends on the length. Test vectors cover few lengths, and 32-bit hosts are rarely tested.", "anchors": ["src/crypto/cipher/salsa20/xmm/salsa20_x86_xmm5.s:294-4985", "src/crypto/cipher/salsa2012/xmm/salsa2012_x86_xmm5.s:294-4985", "src/crypto/cipher/salsa20/xmm/salsa20_xmm.c:46-66"]}
{"id": "C108", "title": "Payload methods work with every implementation of their ciphers and MACs", "statement": "Two ends that have agreed on a method and a session secret understand each other whatever implementations of the ciphers and MACs they use (64-bit or 32-bit assembly or a library for Salsa20 and Salsa20/12, tables or carry-less multiplication for GHASH): packets are exactly those specified by Salsa20, counter mode, GHASH and UHASH with the keys taken from the secret in the documented order, and every packet sent is delivered unchanged unless its number is refused. A session is set up exactly if the secret has the length the method asks for, and no byte beyond it is read; no method asks for more than key derivation can give.", "quantifier": "all methods, all pairs of implementations, all secrets, all packets of up to 16 MiB, all session states, all contents of registers and stack", "why_tests_cant": "The combinations of methods, ciphers and implementations at both ends, with all secrets and lengths, cannot be enumerated; tests run on one machine with one implementation.", "anchors": ["src/methods/*/*.c: method_session_init, method_key_length, method_encrypt, method_decrypt", "src/crypto/cipher/*/*/*.c: crypt", "src/crypto/mac/*/*/*.c: digest"]}
{"id": "C109", "title": "No byte of key stream is used twice", "statement": "In a session, the inputs from which bytes of the key stream are computed (IV, block number, byte) are all different: for all packets sent by both ends, which share a key, at all positions, and for the key of GHASH.", "quantifier": "all sequences of events at both ends of a session, all ciphers, all keys, all packet lengths of up to 2^38 bytes", "why_tests_cant": "Reuse would show after up to 2^47 packets or between packets of different ends; a test sees only a few packets.", "anchors": ["src/methods/common.h: fastd_method_expand_nonce, fastd_method_increment_nonce", "src/methods/common.c: fastd_method_common_init", "src/methods/generic_gmac/generic_gmac.c: method_session_init", "src/methods/composed_gmac/composed_gmac.c: method_session_init"]}
{"id": "C110", "title": "A session over a network that loses, repeats, delays and reorders packets delivers every payload at most once, and new packets always", "statement": "Take both ends of a session of any method, each sending any payloads at any times while its session is valid, and a network that delivers any packet an end has sent to the other end, any number of times, in any order and at any time, or never, and that also delivers any other packets that were not made with the keys of the session. Then at each moment the payloads each end has received are, in some order, some of the payloads the other end has sent: nothing is received twice, changed or invented. A packet that is delivered while the session is valid, before all packets sent after it, is received, however many earlier packets were lost or are late (up to 2^39-2 packets per session). So if the network loses nothing and keeps the order, everything is received in order. (The network is assumed not to send packets back to their sender, see C02.)", "quantifier": "For all AEADs that open what they seal, in particular every method with every cipher; all numbers of steps of both ends and of the network, in all orders and at all times; all payloads.", "why_tests_cant": "The executions are unbounded interleavings of two senders, two receivers with windows and timers, and an adversarial network; tests run a few packets over a good network.", "anchors": ["src/method.h", "src/methods/common.c", "src/methods/common.h", "src/receive.c", "src/send.c"]}
{"id": "C111", "title": "Two daemons with each other's keys and a common method name end up with sessions that understand each other", "statement": "If two builds of the daemon, which may contain different ciphers, MACs and methods, both accept a method name, they mean the same method by it. If two daemons know each other's public keys, exchange handshake keys, and use a method name both accept, then they compute the same shared secrets (or both notice that the result is the neutral element), derive the same session secret, which is long enough for the method, so both can set up a session, whatever implementations of ciphers and MACs each of them chooses; and the first packet either of them sends, with any payload, is opened by the other one with exactly this payload while its session is valid.", "quantifier": "For all key pairs and handshake keys of both parties, all groups with the properties of the curve, all builds and method names, all choices of implementations, all payloads and buffers within the configured size, all times.", "why_tests_cant": "It composes key agreement, method names, key derivation, session set-up and packet processing over all keys and all pairs of builds; tests connect one build to itself with a few keys.", "anchors": ["src/protocols/ec25519_fhmqvc/handshake.c", "src/protocols/ec25519_fhmqvc/util.c", "src/methods/methods.c.in", "src/crypto/cipher/ciphers.c.in", "src/methods/generic_gmac/generic_gmac.c", "src/methods/composed_umac/composed_umac.c"]}
{"id": "C112", "title": "Android integration: the interface is the GUI's, and sockets are used only after the GUI has protected them", "statement": "With --android-integration, if fastd starts, its interface is the descriptor sent by the GUI and the GUI has been sent the PID in decimal; if the GUI does not send a descriptor, fastd does not go on. Every socket fastd uses for its packets was sent to the GUI before, which has answered 'X', so that encrypted packets are never routed into the tunnel itself. (False with a bind address, where fastd either exits or asks whoever is at descriptor 0, and if the GUI closes the connection, when an uninitialised byte is taken for the answer.)", "quantifier": "For all behaviours of the kernel and the GUI at each call, all numbers of sockets opened.", "why_tests_cant": "The behaviour of the GUI and the order of operations at start are arbitrary; tests would need an Android system, and the failures depend on closed connections and stack contents.", "anchors": ["src/android.c", "src/socket.c:145-171", "src/iface.c:142-156", "src/fastd.c:500-508"]}
{"id": "C113", "title": "The service manager is told at the address it gave that fastd is ready, and with which PID; the PID file contains the PID", "statement": "If NOTIFY_SOCKET is a path or a name with @ (of at most 108 characters), a message is sent to exactly this path or abstract socket: READY=1 and MAINPID with the decimal PID; for other values nothing is sent. A configured PID file that can be written contains the decimal PID and nothing else. (Longer values are cut, and the message goes elsewhere.)", "quantifier": "For all values of NOTIFY_SOCKET and all PIDs.", "why_tests_cant": "Values are arbitrary strings, including the limits of the address structure.", "anchors": ["src/fastd.c:225-265", "src/fastd.c:371-411"]}
{"id": "C114", "title": "The clock is monotone and exact to a millisecond, so that timeouts are neither early nor late by more than that", "statement": "The time used for all timeouts is the monotonic system clock in milliseconds, rounded down, without integer overflow; it never goes back; a timeout of d milliseconds is not over before d-1 milliseconds have passed, and it is over once d milliseconds have passed and the clock is read.", "quantifier": "For all pairs of system times within 285 million years, all timeouts.", "why_tests_cant": "Rounding and overflow matter at the boundaries of milliseconds and of the types only.", "anchors": ["src/time.c:36-41", "src/fastd.h:583-601"]}
{"id": "C115", "title": "Interfaces of OpenBSD, NetBSD and macOS are opened as configured and closed without leaks", "statement": "On OpenBSD, NetBSD and macOS, opening an interface succeeds only if a name is configured that begins with tap or tun according to the mode; then exactly the interface with this name is attached, with the configured MTU, and with an address family header if and only if fastd expects one. If opening fails or the interface is closed, no descriptor stays open, interfaces that existed still exist, and (if the driver removes interfaces it has created) no others do.", "quantifier": "for all systems, drivers, kernels states, results of system calls, modes, names and MTUs", "why_tests_cant": "the systems are not those that tests run on, and failures of single calls are hard to provoke", "anchors": ["src/iface.c:303", "src/iface.c:354", "src/iface.c:366", "src/iface.c:540", "src/iface.c:577"]}
{"id": "C116", "title": "Traffic statistics count exactly the packets that were sent and received", "statement": "The numbers of packets and bytes that the status socket reports are those of the payload packets actually handled: each packet passed to the system counts as exactly one of sent, dropped (EAGAIN) and failed, according to the last attempt, and each packet written to the interface as received, with its size before encryption. Totals cover the whole run, the counters of a peer the time since its connection was reset. Keepalives and handshakes do not count, and no NULL pointer is used for handshakes with unknown peers.", "quantifier": "for all sequences of packets sent and received, handshakes and resets, all results of sendmsg, all peers", "why_tests_cant": "depends on histories of arbitrary length and on failures of the system that tests do not produce", "anchors": ["src/peer.h:287", "src/send.c:69", "src/receive.c:287", "src/peer.c:317", "src/status.c:60", "src/protocols/ec25519_fhmqvc/ec25519_fhmqvc.c:161"]}
{"id": "C117", "title": "Two daemons with matching settings connect and carry packets", "statement": "Two daemons have each other's public keys, the same protocol, mode and MTU and at least one method in common; the builds, implementations of ciphers and further methods may differ. When a handshake is due at one of them and its packets arrive, both are connected, with the method that is first in the list of the responder. Then every packet read from an interface at either end that is meant for the other one and not longer than both ends have configured is sent there and, if it arrives, written to the interface at the other end, once and unchanged. Buffers are large enough for all of this.", "quantifier": "all secret keys and random numbers, all pairs of builds, methods and implementations with keys, all states of both daemons that can be reached, all payloads up to the maximum size", "why_tests_cant": "A test runs one pair of builds with few keys; that names, key derivation, sizes of buffers and counters fit together for all of them, from the first handshake to the interface at the other end, is a statement about all combinations", "anchors": ["src/protocols/ec25519_fhmqvc/handshake.c", "src/protocols/ec25519_fhmqvc/ec25519_fhmqvc.c", "src/method.h", "src/methods/common.c", "src/config.c:462-500", "src/receive.c", "src/send.c", "src/iface.c"]}
{"id": "C118", "title": "Unknown keys get a session only after the on-verify command has approved them", "statement": "With an asynchronous on-verify command (the default), every session that is set up belongs to a peer that is in the configuration, or to one for which the command has returned a positive result less than a minute before; with a synchronous one, to a peer for which such a result is valid or is returned now.", "quantifier": "all executions of the daemon, with all packets from any sender and all results of commands", "why_tests_cant": "Depends on the whole history: when results arrive, peers being reset or deleted in between, time passing.", "anchors": ["src/protocols/ec25519_fhmqvc/handshake.c: handle_dynamic, add_dynamic, fastd_protocol_ec25519_fhmqvc_handle_verify_return", "src/verify.c: fastd_verify_peer", "src/peer.h: fastd_peer_set_verified", "src/async.c: handle_verify_return"]}
{"id": "C119", "title": "Random data comes from the system, and none of it is used twice", "statement": "Every seed and key gets exactly as many random bytes as it needs. The bytes of seeds and handshake keys are, in order and without gaps, what was read from /dev/urandom, and generated keys get separate pieces of what was read from /dev/random; no byte is used for two purposes or made up. If a device can't be opened or read fastd exits at once, and all devices are closed in the end.", "quantifier": "all sequences of uses and all behaviours of the system, including short reads and failures at any time", "why_tests_cant": "Short reads and failures do not happen in tests, and reuse of buffered bytes would not be noticed as all values look random", "anchors": ["src/random.c", "src/fastd.c:402-412", "src/protocols/ec25519_fhmqvc/state.c:30", "src/protocols/ec25519_fhmqvc/util.c:33", "src/receive.c:82", "src/peer_hashtable.c:19"]}
{"id": "C120", "title": "Connections are kept alive", "statement": "The task of every established peer is scheduled at most 20 seconds ahead and no later than its next keepalive is due. When it is run and a keepalive is due, an empty packet is encrypted and sent to the peer, unless the connection ends because nothing was received for too long or because the session has expired.", "quantifier": "all executions of the daemon, with all packets from any sender and all times", "why_tests_cant": "Depends on the history of each peer: any path that forgets to reschedule the task or to set the timeout would let idle connections die only after a long time.", "anchors": ["src/peer.c:230-245 (schedule_peer_task)", "src/peer.c:976-1011 (fastd_peer_handle_task)", "src/peer.h:260-263 (fastd_peer_clear_keepalive)", "src/protocols/ec25519_fhmqvc/ec25519_fhmqvc.c:163-198 (session_send, protocol_send)"]}
