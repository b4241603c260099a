{
 "claims": [
  {
   "property": "C01",
   "status": "partial",
   "theorems": [
    "Fastd.Method.C01_no_replay_partial",
    "Fastd.Method.C01_no_replay_false"
   ],
   "note": "Proved for packets of the other side's parity; refuted in general because the parity test reads the wrong nonce byte (common.c:38)."
  },
  {
   "property": "C02",
   "status": "partial",
   "theorems": [
    "Fastd.Method.C02_reflection_partial",
    "Fastd.Method.C02_reflection_false",
    "Fastd.Method.C02_reflection_responder_false"
   ],
   "note": "The claim is false for the code (witness); the partial theorem says which reflected packets are still refused."
  },
  {
   "property": "C03",
   "status": "partial",
   "theorems": [
    "Fastd.Method.C03_window_partial",
    "Fastd.Method.C03_fresh_accepted_false"
   ],
   "note": "Exact refinement of an ideal window for packet numbers below 2^40 of the other side; refuted from 2^40 on."
  },
  {
   "property": "C04",
   "status": "proved",
   "theorems": [
    "Fastd.Method.C04_sent_numbers",
    "Fastd.Method.C04_send_unique",
    "Fastd.Method.C04_directions_disjoint",
    "Fastd.Method.C04_invalid_before_wrap"
   ],
   "note": ""
  },
  {
   "property": "C05",
   "status": "proved",
   "theorems": [
    "Fastd.Method.C05_header_round_trip",
    "Fastd.Method.C05_header_accepted",
    "Fastd.Method.C05_header_refused"
   ],
   "note": ""
  },
  {
   "property": "C06",
   "status": "proved",
   "theorems": [
    "Fastd.Method.C06_lifetime",
    "Fastd.Method.C06_superseded",
    "Fastd.Method.C06_expired_stays_expired"
   ],
   "note": ""
  },
  {
   "property": "C07",
   "status": "proved",
   "theorems": [
    "Fastd.Path.C07_pool",
    "Fastd.Path.C07_cleanup"
   ],
   "note": ""
  },
  {
   "property": "C08",
   "status": "proved",
   "theorems": [
    "Fastd.Buffer.C08_push",
    "Fastd.Buffer.C08_pull",
    "Fastd.Buffer.C08_push_pull",
    "Fastd.Buffer.C08_pull_push",
    "Fastd.Buffer.C08_push_from",
    "Fastd.Buffer.C08_push_zero",
    "Fastd.Buffer.C08_pull_to",
    "Fastd.Buffer.C08_dup",
    "Fastd.Buffer.C08_align",
    "Fastd.Buffer.C08_zero_pad"
   ],
   "note": ""
  },
  {
   "property": "C09",
   "status": "proved",
   "theorems": [
    "Fastd.Method.C09_packet_restored",
    "Fastd.Method.C09_second_attempt",
    "Fastd.Method.C62_generic_decrypt",
    "Fastd.Method.C62_composed_decrypt",
    "Fastd.Method.C62_cipher_test_decrypt",
    "Fastd.Method.C62_poly_decrypt"
   ],
   "note": ""
  },
  {
   "property": "C10",
   "status": "partial",
   "theorems": [
    "Fastd.Path.C10_partial",
    "Fastd.Path.C10_small_mtu_false",
    "Fastd.Path.C10_mixed_overhead_false",
    "Fastd.Path.C10_multiaf_false"
   ],
   "note": "The full claim is false: fastd aborts with small MTUs, when forwarding between methods of different overhead, and on multi-AF TUN platforms with only cipher-test. Proved for all other configurations."
  },
  {
   "property": "C100",
   "status": "proved",
   "theorems": [
    "Fastd.Net.Tun.C100_open",
    "Fastd.Net.Tun.C100_refused",
    "Fastd.Net.Tun.C100_close"
   ],
   "note": "Linux and FreeBSD. That created interfaces vanish on FreeBSD needs close and SIOCIFDESTROY to succeed."
  },
  {
   "property": "C101",
   "status": "partial",
   "theorems": [
    "Fastd.Net.Tun.C101_read_partial",
    "Fastd.Net.Tun.C101_read_false",
    "Fastd.Net.Tun.C101_write"
   ],
   "note": "False for packets that are less than 4 bytes shorter than the MTU on FreeBSD, OpenBSD and NetBSD in TUN mode: their end is cut off (C101_read_false, for all MTUs of at least 4). Proved for all other packets, and for all packets on Linux and macOS and in TAP mode."
  },
  {
   "property": "C102",
   "status": "proved",
   "theorems": [
    "Fastd.StatusSock.C102_one",
    "Fastd.StatusSock.C102_own",
    "Fastd.StatusSock.C102_refused",
    "Fastd.StatusSock.C102_removed",
    "Fastd.StatusSock.C102_no_return",
    "Fastd.StatusSock.C102_restart",
    "Fastd.StatusSock.C102_ids"
   ],
   "note": "Interleaved system calls as a transition system; invariant by induction. Other programs do not touch the lock file and the path."
  },
  {
   "property": "C103",
   "status": "proved",
   "theorems": [
    "Fastd.Protocol.Fhmqvc.C103_generate",
    "Fastd.Protocol.Fhmqvc.C103_random",
    "Fastd.Protocol.Fhmqvc.C103_show",
    "Fastd.Protocol.Fhmqvc.C103_connect"
   ],
   "note": "libuecc is a parameter with the laws of the group (as for C31)."
  },
  {
   "property": "C104",
   "status": "proved",
   "theorems": [
    "Fastd.Net.PeerIface.C104_order",
    "Fastd.Net.PeerIface.C104_delete",
    "Fastd.Net.PeerIface.C104_iface"
   ],
   "note": "Trace of one peer accepted by an automaton, by invariant."
  },
  {
   "property": "C105",
   "status": "proved",
   "theorems": [
    "Fastd.Log.C105_where",
    "Fastd.Log.C105_quiet",
    "Fastd.Log.C105_syslog_order",
    "Fastd.Log.C105_hidden",
    "Fastd.Log.C105_shown"
   ],
   "note": "On top of the formatter of C57; relation between two runs."
  },
  {
   "property": "C106",
   "status": "proved",
   "theorems": [
    "Fastd.Crypto.SalsaXmm.C106_salsa20",
    "Fastd.Crypto.SalsaXmm.C106_salsa2012",
    "Fastd.Crypto.SalsaXmm.C106_deterministic",
    "Fastd.Crypto.SalsaXmm.C106_decrypt",
    "Fastd.Crypto.SalsaXmm.C106_far_false"
   ],
   "note": "The assembly program as a list of instructions of a machine model, taken from the file by a script; C106_far_false shows why the length is bounded by 2^38 bytes"
  },
  {
   "property": "C107",
   "status": "proved",
   "theorems": [
    "Fastd.Crypto.SalsaX86.C107_salsa20",
    "Fastd.Crypto.SalsaX86.C107_salsa2012",
    "Fastd.Crypto.SalsaX86.C107_interop",
    "Fastd.Crypto.SalsaX86.C107_long_false"
   ],
   "note": "Instruction by instruction model of both assembly files (they only differ in the number of rounds). The bound of 2^32 bytes is sharp (C107_long_false): only the low half of the length is used. Not modelled: the instructions that set up and remove the stack frame."
  },
  {
   "property": "C108",
   "status": "proved",
   "theorems": [
    "Fastd.Method.Suite.C108_cipher",
    "Fastd.Method.Suite.C108_session",
    "Fastd.Method.Suite.C108_key_length",
    "Fastd.Method.Suite.C108_encrypt",
    "Fastd.Method.Suite.C108_decrypt",
    "Fastd.Method.Suite.C108_interop"
   ],
   "note": "Libraries (NaCl/libsodium, OpenSSL) are assumed to compute Salsa20 and counter mode; the block cipher and Poly1305 are arbitrary functions."
  },
  {
   "property": "C109",
   "status": "proved",
   "theorems": [
    "Fastd.Method.Suite.C109_core",
    "Fastd.Method.Suite.C109_source",
    "Fastd.Method.Suite.C109_hash_key",
    "Fastd.Method.Suite.C109_no_reuse"
   ],
   "note": ""
  },
  {
   "property": "C11",
   "status": "partial",
   "theorems": [
    "Fastd.Path.C11_false",
    "Fastd.Path.C11_partial"
   ],
   "note": "The full claim is false in TUN and MULTITAP modes; proved for TAP mode and if no later peer has a larger MTU."
  },
  {
   "property": "C110",
   "status": "proved",
   "theorems": [
    "Fastd.Method.Tunnel.C110_at_most_once",
    "Fastd.Method.Tunnel.C110_newest",
    "Fastd.Method.Tunnel.C110_lossless",
    "Fastd.Method.Tunnel.C110_methods"
   ],
   "note": "Both ends with the code for numbers, windows and packets of C02/C03/C62; by an invariant over all executions. Packets not made with the keys are those that do not open; reflection of packets to their sender is excluded (finding of C02)."
  },
  {
   "property": "C111",
   "status": "proved",
   "theorems": [
    "Fastd.EndToEnd.C111_method",
    "Fastd.EndToEnd.C111_connect"
   ],
   "note": "Composition of C31, C64, C108 and C62. The curve is an abstract group with stated laws (as for C31), libraries are those of C108. Methods null and null@l2tp have no keys; see C62 and C63."
  },
  {
   "property": "C112",
   "status": "partial",
   "theorems": [
    "Fastd.Net.Android.C112_partial",
    "Fastd.Net.Android.C112_no_descriptor",
    "Fastd.Net.Android.C112_bind_false",
    "Fastd.Net.Android.C112_bind_stdin_false",
    "Fastd.Net.Android.C112_eof_false"
   ],
   "note": "Full claim false for the code: sockets for bind addresses are opened before the connection to the GUI, and a closed connection is not noticed. Proved for all other cases."
  },
  {
   "property": "C113",
   "status": "partial",
   "theorems": [
    "Fastd.Main.Notify.C113_address_partial",
    "Fastd.Main.Notify.C113_message",
    "Fastd.Main.Notify.C113_sent",
    "Fastd.Main.Notify.C113_pid_file",
    "Fastd.Main.Notify.C113_long_false"
   ],
   "note": "Full claim false for the code for values of more than 108 characters, which are cut; proved for all others."
  },
  {
   "property": "C114",
   "status": "proved",
   "theorems": [
    "Fastd.Main.Notify.C114_time",
    "Fastd.Main.Notify.C114_monotone",
    "Fastd.Main.Notify.C114_timeout"
   ],
   "note": "The variant for macOS is not modelled."
  },
  {
   "property": "C115",
   "status": "partial",
   "theorems": [
    "Fastd.Net.Tun.C115_open",
    "Fastd.Net.Tun.C115_name",
    "Fastd.Net.Tun.C115_refused",
    "Fastd.Net.Tun.C115_close_partial",
    "Fastd.Net.Tun.C115_close_false"
   ],
   "note": "Opening, names and failure are proved in full. That closing removes interfaces that did not exist before is proved for drivers that remove them; refuted for drivers that keep them, as fastd never does it on these systems."
  },
  {
   "property": "C116",
   "status": "proved",
   "theorems": [
    "Fastd.Daemon.Stats.C116_safe",
    "Fastd.Daemon.Stats.C116_log",
    "Fastd.Daemon.Stats.C116_total",
    "Fastd.Daemon.Stats.C116_peer",
    "Fastd.Daemon.Stats.C116_one",
    "Fastd.Daemon.Stats.C116_status"
   ],
   "note": "Counters are exact modulo 2^64; the reported numbers are exact below 2^63."
  },
  {
   "property": "C117",
   "status": "proved",
   "theorems": [
    "Fastd.Whole.C117_tunnel",
    "Fastd.Whole.C117_across",
    "Fastd.Whole.C117_compatible",
    "Fastd.Whole.C117_sizes"
   ],
   "note": "For the methods made of ciphers and MACs (not null and null@l2tp), when no older session with the peer is still in use, and unless the result of the key exchange is the neutral element. Events at either daemon are assumed to be handled without exit (see C65)."
  },
  {
   "property": "C118",
   "status": "proved",
   "theorems": [
    "Fastd.Daemon.C118_session",
    "Fastd.Daemon.C118_sync"
   ],
   "note": "C118_session: all executions of the daemon model with an asynchronous command; the clock is not negative. C118_sync: the check itself, for both kinds of commands. Results of the command are inputs of the model."
  },
  {
   "property": "C119",
   "status": "proved",
   "theorems": [
    "Fastd.Random.C119_bytes",
    "Fastd.Random.C119_disjoint",
    "Fastd.Random.C119_exit",
    "Fastd.Random.C119_files"
   ],
   "note": "For one process; the buffer of the C library is modelled. Processes forked by fastd do not use random data, which is not part of the theorems."
  },
  {
   "property": "C12",
   "status": "proved",
   "theorems": [
    "Fastd.Task.C12_queue"
   ],
   "note": "pointer-level model of pqueue.c; all operation sequences; both evaluation orders in pqueue_merge_pairs; scheduling a queued task aborts (as in the code), nothing else does"
  },
  {
   "property": "C120",
   "status": "proved",
   "theorems": [
    "Fastd.Daemon.C120_scheduled",
    "Fastd.Daemon.C120_sent"
   ],
   "note": "C120_scheduled assumes that the time is at least 20 seconds below FASTD_TIMEOUT_INV; C120_sent assumes that the methods can encrypt empty packets."
  },
  {
   "property": "C13",
   "status": "proved",
   "theorems": [
    "Fastd.Task.C13_links",
    "Fastd.Task.C13_unlink"
   ],
   "note": "link consistency stated on the raw pointers (back/forward pointers, reachability, heap order)"
  },
  {
   "property": "C14",
   "status": "proved",
   "theorems": [
    "Fastd.Task.C14_handling",
    "Fastd.Task.C14_no_abort",
    "Fastd.Task.C14_not_early",
    "Fastd.Task.C14_not_lost",
    "Fastd.Task.C14_no_ghost",
    "Fastd.Task.C14_in_order",
    "Fastd.Task.C14_poll"
   ],
   "note": "handlers are arbitrary; C14_in_order needs that handlers never schedule before the due time of the task being handled (shown for the peer tasks with C40/C60); C14_handling is about terminating loops, termination is C60"
  },
  {
   "property": "C15",
   "status": "proved",
   "theorems": [
    "Fastd.Data.C15_vector",
    "Fastd.Data.C15_grow",
    "Fastd.Data.C15_capacity"
   ],
   "note": "vector.c on cells; fewer than 2^61 operations; sizes as 64 bit size_t; growing leaves new elements unspecified"
  },
  {
   "property": "C16",
   "status": "proved",
   "theorems": [
    "Fastd.Daemon.C16_equivalence",
    "Fastd.Daemon.C16_exact"
   ],
   "note": "Address comparison is an equivalence relation, characterised exactly by endpoint identity."
  },
  {
   "property": "C17",
   "status": "proved",
   "theorems": [
    "Fastd.Daemon.C17_normalise",
    "Fastd.Daemon.C17_canonical"
   ],
   "note": "IPv4-mapped simplification and widening preserve the endpoint and give a canonical form."
  },
  {
   "property": "C18",
   "status": "proved",
   "theorems": [
    "Fastd.Daemon.C18_lookup"
   ],
   "note": "for every reachable state of the daemon model and every address, hash seed and oracle tape; the lookup always ends normally"
  },
  {
   "property": "C19",
   "status": "proved",
   "theorems": [
    "Fastd.Daemon.C19_unique_address"
   ],
   "note": "every reachable state of the daemon model, addresses compared as by fastd_peer_address_equal"
  },
  {
   "property": "C20",
   "status": "partial",
   "theorems": [
    "Fastd.Daemon.C20_partial",
    "Fastd.Daemon.Demo.C20_false"
   ],
   "note": "Proved for executions in which no reload configures the address that another peer already uses at that time; Demo.C20_false shows that without this condition a connected peer keeps an address that a reload has configured for another peer."
  },
  {
   "property": "C21",
   "status": "proved",
   "theorems": [
    "Fastd.Daemon.C21_start",
    "Fastd.Daemon.C21_step",
    "Fastd.Daemon.C21_lookup",
    "Fastd.Daemon.C21_connected"
   ],
   "note": "C21_step determines the table after every event from the table before it, for all reachable states; lookups are by the modelled binary search."
  },
  {
   "property": "C22",
   "status": "proved",
   "theorems": [
    "Fastd.Daemon.C22_no_dangling",
    "Fastd.Daemon.C22_sockets"
   ],
   "note": "every reachable state: every MAC entry belongs to an established peer, every hash table entry to a peer with an address, every per-peer socket to its peer"
  },
  {
   "property": "C23",
   "status": "proved",
   "theorems": [
    "Fastd.Daemon.C23_iface",
    "Fastd.Daemon.C23_short",
    "Fastd.Daemon.C23_own",
    "Fastd.Daemon.C23_forward",
    "Fastd.Daemon.C23_only"
   ],
   "note": "All events in all reachable states; the addresses in the MAC table are those of C21."
  },
  {
   "property": "C24",
   "status": "proved",
   "theorems": [
    "Fastd.Handshake.C24_tlv_round_trip"
   ],
   "note": ""
  },
  {
   "property": "C25",
   "status": "proved",
   "theorems": [
    "Fastd.Handshake.C25_parser_safe",
    "Fastd.Handshake.C30_handshake_rules"
   ],
   "note": "C30_handshake_rules includes that no read of any record goes outside the packet."
  },
  {
   "property": "C26",
   "status": "proved",
   "theorems": [
    "Fastd.Handshake.C26_read_uint",
    "Fastd.Handshake.C26_uint_fixed_round_trip",
    "Fastd.Handshake.C26_uint_round_trip"
   ],
   "note": ""
  },
  {
   "property": "C27",
   "status": "proved",
   "theorems": [
    "Fastd.Handshake.C27_list_round_trip",
    "Fastd.Handshake.C27_first_common_method",
    "Fastd.Handshake.C27_failure_iff",
    "Fastd.Handshake.C27_any_list_safe",
    "Fastd.Handshake.C27_both_ends_agree"
   ],
   "note": ""
  },
  {
   "property": "C28",
   "status": "proved",
   "theorems": [
    "Fastd.Handshake.C28_handshake_fits",
    "Fastd.Handshake.C28_oversized_refused",
    "Fastd.Handshake.C28_error_fits"
   ],
   "note": ""
  },
  {
   "property": "C29",
   "status": "partial",
   "theorems": [
    "Fastd.Handshake.C29_error_reply_not_answered",
    "Fastd.Handshake.C29_no_chain",
    "Fastd.Handshake.C29_incoming_error_dropped_partial",
    "Fastd.Handshake.C29_any_error_reply_false"
   ],
   "note": "No chain of errors is longer than one answer; the literal claim is false for forged error replies with bad flags, protocol or mode records."
  },
  {
   "property": "C30",
   "status": "proved",
   "theorems": [
    "Fastd.Handshake.C30_handshake_rules"
   ],
   "note": "Generic checks; the checks of the key exchange protocol are part of the protocol model."
  },
  {
   "property": "C31",
   "status": "proved",
   "theorems": [
    "Fastd.Protocol.Fhmqvc.C31_initiator",
    "Fastd.Protocol.Fhmqvc.C31_responder",
    "Fastd.Protocol.Fhmqvc.C31_shared",
    "Fastd.Protocol.Fhmqvc.C31_session",
    "Fastd.Protocol.Fhmqvc.C31_binding",
    "Fastd.Protocol.Fhmqvc.C31_ephemeral",
    "Fastd.Protocol.Fhmqvc.C31_cache",
    "Fastd.Protocol.Fhmqvc.C31_documented_order_false"
   ],
   "note": "For every secret keys and all random bytes: initiator and responder compute the shared secret (x + d a)(y + e b)P, the handshake key and the session keys of an independent specification of FHMQV-C, so that they agree; both fail in the same cases. The cached value used by the responder is always the one for the handshake keys in question. libuecc (curve arithmetic, packing) is a parameter with explicit assumptions (Ecc.Lawful), which are shown to be satisfiable. C31_documented_order_false: session keys are derived from the public keys in another order than documented (the same on both sides)."
  },
  {
   "property": "C32",
   "status": "proved",
   "theorems": [
    "Fastd.Daemon.C32_session"
   ],
   "note": "For all reachable states of the daemon model and all packets. Key agreement, hash and method lookup are arbitrary functions of the environment."
  },
  {
   "property": "C33",
   "status": "partial",
   "theorems": [
    "Fastd.Daemon.C33_partial",
    "Fastd.Daemon.C33_key_partial",
    "Fastd.Daemon.Demo.C33_false"
   ],
   "note": "As long as a peer exists its sessions use handshake keys of increasing serial number (all reachable states); without dynamic peers also across removal and re-adding. Violated for dynamic peers: after the peer is removed (e.g. by a reset of all connections) a replayed handshake leads to the same session key again (C33_false)."
  },
  {
   "property": "C34",
   "status": "partial",
   "theorems": [
    "Fastd.Protocol.C34_fresh_partial",
    "Fastd.Protocol.C34_accept",
    "Fastd.Protocol.C34_two",
    "Fastd.Protocol.C34_serial",
    "Fastd.Protocol.C34_verified_false"
   ],
   "note": "Everything proved except for responses after asynchronous verification, which do not renew the key; for these the claim is wrong (C34_verified_false)."
  },
  {
   "property": "C35",
   "status": "proved",
   "theorems": [
    "Fastd.Daemon.C35_owner",
    "Fastd.Daemon.C35_live",
    "Fastd.Daemon.C35_established",
    "Fastd.Daemon.C35_once",
    "Fastd.Daemon.C35_same"
   ],
   "note": "Session objects are numbered in the order of allocation; freeing or using a freed object would be an error of the model, which Inv excludes (C65)."
  },
  {
   "property": "C36",
   "status": "proved",
   "theorems": [
    "Fastd.Daemon.C36_send",
    "Fastd.Daemon.C36_accept",
    "Fastd.Daemon.C36_confirm",
    "Fastd.Daemon.C36_rekey"
   ],
   "note": "Events in all reachable states; C36_rekey is about the function `establish` in any state satisfying the invariant."
  },
  {
   "property": "C37",
   "status": "proved",
   "theorems": [
    "Fastd.Daemon.C37_group_limits"
   ],
   "note": "every reachable state, group tree arbitrary (Env.chain)"
  },
  {
   "property": "C38",
   "status": "proved",
   "theorems": [
    "Fastd.Daemon.C38_lookup",
    "Fastd.Daemon.C38_never_reused",
    "Fastd.Daemon.C38_ids",
    "Fastd.Daemon.C38_resolved",
    "Fastd.Daemon.C38_verified"
   ],
   "note": "ids are unbounded in the model (uint64_t in C)"
  },
  {
   "property": "C39",
   "status": "proved",
   "theorems": [
    "Fastd.Daemon.C39_unique",
    "Fastd.Daemon.C39_duplicate_disabled"
   ],
   "note": "for all reachable states, including any number of reloads; a key defined twice leaves exactly one disabled peer"
  },
  {
   "property": "C40",
   "status": "proved",
   "theorems": [
    "Fastd.Daemon.C40_no_timer_missed"
   ],
   "note": "every reachable state; deadlines below the invalid timeout INT64_MAX"
  },
  {
   "property": "C41",
   "status": "partial",
   "theorems": [
    "Fastd.Daemon.C41_stale_partial",
    "Fastd.Daemon.C41_fresh_partial",
    "Fastd.Daemon.C41_scheduled_partial",
    "Fastd.Daemon.lastHeard",
    "Fastd.Daemon.Demo.C41_false"
   ],
   "note": "Proved for all peers that are not dynamic. Demo.C41_false: for dynamic peers an unauthenticated initial handshake that triggers verification keeps the connection."
  },
  {
   "property": "C42",
   "status": "partial",
   "theorems": [
    "Fastd.Daemon.C42_partial",
    "Fastd.Daemon.C42_once_partial",
    "Fastd.Daemon.Demo.C42_false"
   ],
   "note": "Proved for consecutive handshakes of a peer that is not reset in between. Demo.C42_false: after a reset a second handshake is sent at once."
  },
  {
   "property": "C43",
   "status": "proved",
   "theorems": [
    "Fastd.Daemon.Backoff.C43_backoff",
    "Fastd.Daemon.Backoff.C43_displaced",
    "Fastd.Daemon.Backoff.C43_spacing",
    "Fastd.Daemon.Backoff.C43_no_bug"
   ],
   "note": ""
  },
  {
   "property": "C44",
   "status": "partial",
   "theorems": [
    "Fastd.Daemon.C44_range",
    "Fastd.Daemon.C44_step",
    "Fastd.Daemon.C44_cycle",
    "Fastd.Daemon.C44_access_partial",
    "Fastd.Daemon.Demo.C65_remote_false"
   ],
   "note": "The cycle and the ranges are proved for all reachable states. Demo.C65_remote_false: a peer without remotes for which a handshake is scheduled after sendmsg refused packet info leads to an access to a remote that does not exist."
  },
  {
   "property": "C45",
   "status": "proved",
   "theorems": [
    "Fastd.Daemon.C45_decrypt",
    "Fastd.Daemon.C45_handshake",
    "Fastd.Daemon.C45_other"
   ],
   "note": "For all reachable states of the daemon model and all packets."
  },
  {
   "property": "C46",
   "status": "proved",
   "theorems": [
    "Fastd.Crypto.C46_buffer",
    "Fastd.Crypto.C46_exact_read",
    "Fastd.Crypto.C46_blocks"
   ],
   "note": "Against a transcription of FIPS 180-4 whose constants are checked to be the cube and square roots. Messages below 2^29 bytes."
  },
  {
   "property": "C47",
   "status": "proved",
   "theorems": [
    "Fastd.Crypto.C47_hmac",
    "Fastd.Crypto.C47_hmac_blocks",
    "Fastd.Crypto.C47_extract",
    "Fastd.Crypto.C47_expand"
   ],
   "note": "Against RFC 2104 and RFC 5869, for 32-byte keys."
  },
  {
   "property": "C48",
   "status": "proved",
   "theorems": [
    "Fastd.Crypto.Ghash.C48",
    "Fastd.Crypto.Ghash.C48_oversized",
    "Fastd.Crypto.Ghash.C48_short",
    "Fastd.Crypto.Ghash.mulH_eq",
    "Fastd.Crypto.Ghash.ofBytes_inj",
    "Fastd.Crypto.GhashClmul.C48_pclmulqdq",
    "Fastd.Crypto.GhashClmul.gmul_eq"
   ],
   "note": "For every key and every message of less than 2^29 bytes in a zero padded buffer, the table based implementation gives the GHASH of NIST SP 800-38D with the message as ciphertext, or with GHASH_SHIFT_SIZE as additional data; nothing behind the padding is read. Longer messages abort. C48_pclmulqdq: the implementation using PCLMULQDQ gives the same results and failures for every key and input; the vector instructions are modelled after Intel's descriptions."
  },
  {
   "property": "C49",
   "status": "proved",
   "theorems": [
    "Fastd.Crypto.Uhash.C49",
    "Fastd.Crypto.Uhash.C49_long",
    "Fastd.Crypto.Uhash.C49_short"
   ],
   "note": "The portable UHASH (NH, the two polynomial layers with their lazy modular arithmetic, the skipped padding) equals an independent transcription of RFC 4418 for every 1440-byte key and every message of at most 2^24 bytes, and reads only the message and its zero padding; longer messages are refused. The key derivation of the RFC is not part of the code (the key stream comes from the cipher)."
  },
  {
   "property": "C50",
   "status": "proved",
   "theorems": [
    "Fastd.Util.C50_memequal",
    "Fastd.Util.C50_block"
   ],
   "note": ""
  },
  {
   "property": "C51",
   "status": "proved",
   "theorems": [
    "Fastd.Util.C51_accept",
    "Fastd.Util.C51_print",
    "Fastd.Util.C51_roundtrip"
   ],
   "note": ""
  },
  {
   "property": "C52",
   "status": "proved",
   "theorems": [
    "Fastd.Util.C52_divide",
    "Fastd.Util.C52_exact"
   ],
   "note": ""
  },
  {
   "property": "C53",
   "status": "proved",
   "theorems": [
    "Fastd.Config.C53_groups",
    "Fastd.Config.C53_table",
    "Fastd.Config.C53_inherit"
   ],
   "note": ""
  },
  {
   "property": "C54",
   "status": "proved",
   "theorems": [
    "Fastd.Config.Lex.C54",
    "Fastd.Config.Lex.scan_eq",
    "Fastd.Config.Lex.Demo.C54_long_number"
   ],
   "note": "The scanner with its 1024-byte buffer is proved equivalent to the same scanner on the whole contents of the file, for every file and every division into non-empty reads; no byte is used that was not read from the file. Read errors are not modelled; inet_pton and strtoull are arbitrary functions. C54_long_number: a number that fills the buffer is taken for the end of the file."
  },
  {
   "property": "C55",
   "status": "proved",
   "theorems": [
    "Fastd.Config.C55_keywords"
   ],
   "note": "About the keyword table of the code; binary search is proved for any sorted table."
  },
  {
   "property": "C56",
   "status": "proved",
   "theorems": [
    "Fastd.Daemon.Verify.C56_limit",
    "Fastd.Daemon.Verify.C56_refused",
    "Fastd.Daemon.Verify.C56_release",
    "Fastd.Daemon.Verify.C56_all_free"
   ],
   "note": ""
  },
  {
   "property": "C57",
   "status": "proved",
   "theorems": [
    "Fastd.Log.C57_no_overrun",
    "Fastd.Log.C57_text"
   ],
   "note": ""
  },
  {
   "property": "C58",
   "status": "proved",
   "theorems": [
    "Fastd.Config.C58_accept",
    "Fastd.Config.C58_none",
    "Fastd.Config.C58_plain",
    "Fastd.Config.C58_subst",
    "Fastd.Config.C58_bounded"
   ],
   "note": ""
  },
  {
   "property": "C59",
   "status": "proved",
   "theorems": [
    "Fastd.Util.C59_rand",
    "Fastd.Util.C59_handshake",
    "Fastd.Util.C59_first",
    "Fastd.Util.C59_refresh",
    "Fastd.Util.C59_table"
   ],
   "note": ""
  },
  {
   "property": "C60",
   "status": "proved",
   "theorems": [
    "Fastd.Daemon.C60",
    "Fastd.Daemon.task_ranks"
   ],
   "note": "For every reachable state before the time of a timeout that never happens, the number of task events (peer tasks and periodic maintenance) that can be handled one after the other without time passing is at most three for each peer plus one for each ten seconds maintenance is overdue. The order in which due tasks are taken is arbitrary."
  },
  {
   "property": "C61",
   "status": "proved",
   "theorems": [
    "Fastd.Method.C61_expand_injective",
    "Fastd.Method.C61_ctr_blocks_disjoint"
   ],
   "note": ""
  },
  {
   "property": "C62",
   "status": "proved",
   "theorems": [
    "Fastd.Method.C62_generic_encrypt",
    "Fastd.Method.C62_generic_decrypt",
    "Fastd.Method.C62_composed_encrypt",
    "Fastd.Method.C62_composed_decrypt",
    "Fastd.Method.C62_cipher_test_encrypt",
    "Fastd.Method.C62_cipher_test_decrypt",
    "Fastd.Method.C62_poly_encrypt",
    "Fastd.Method.C62_poly_decrypt",
    "Fastd.Method.C62_null",
    "Fastd.Method.C62_l2tp",
    "Fastd.Method.C62_l2tp_keepalive",
    "Fastd.Method.C62_delivery",
    "Fastd.Method.C62_sound"
   ],
   "note": "For received packets whose payload is 16-byte aligned behind the header; see C63 for packets with a control header."
  },
  {
   "property": "C63",
   "status": "partial",
   "theorems": [
    "Fastd.Path.C63_false",
    "Fastd.Path.C63_misaligned",
    "Fastd.Path.C63_overread",
    "Fastd.Path.C63_partial"
   ],
   "note": "The full claim is false for data packets in a control header; proved for all other packets."
  },
  {
   "property": "C64",
   "status": "proved",
   "theorems": [
    "Fastd.Config.MethodNames.C64_accept",
    "Fastd.Config.MethodNames.C64_one_provider",
    "Fastd.Config.MethodNames.C64_one_name",
    "Fastd.Config.MethodNames.C64_no_overflow",
    "Fastd.Config.MethodNames.C64_ciphers",
    "Fastd.Config.MethodNames.C64_lookup",
    "Fastd.Config.MethodNames.C64_undef"
   ],
   "note": ""
  },
  {
   "property": "C65",
   "status": "partial",
   "theorems": [
    "Fastd.Daemon.C65_partial",
    "Fastd.Daemon.C65_start",
    "Fastd.Daemon.C65_loops",
    "Fastd.Daemon.Demo.C65_socket_false",
    "Fastd.Daemon.Demo.C65_remote_false"
   ],
   "note": "Proved for executions in which no handshake of one peer arrives on the dynamic socket of another one, in environments where sendmsg does not refuse packet info. The counterexamples show that both conditions are needed."
  },
  {
   "property": "C66",
   "status": "partial",
   "theorems": [
    "Fastd.Daemon.C66_undefined",
    "Fastd.Daemon.C66_defined_partial",
    "Fastd.Daemon.C66_own_key",
    "Fastd.Daemon.C66_kept",
    "Fastd.Daemon.C66_kept_dynamic",
    "Fastd.Daemon.Demo.C66_mtu_false",
    "Fastd.Daemon.Demo.C66_port_false"
   ],
   "note": "proved except that a reload ignores changes of the MTU and of the port of a hostname remote: the code does not compare these, and the negation is proved"
  },
  {
   "property": "C67",
   "status": "proved",
   "theorems": [
    "Fastd.Config.Lex.C67"
   ],
   "note": "Round trip for all item sequences, white space, comments and piece sizes; strtoull and inet_pton are parameters, an item of that kind is any text they accept."
  },
  {
   "property": "C68",
   "status": "partial",
   "theorems": [
    "Fastd.Poll.C68_poll",
    "Fastd.Poll.C68_epoll_false",
    "Fastd.Poll.C68_epoll_partial",
    "Fastd.Daemon.C68_daemon_false"
   ],
   "note": "Holds for the poll variant for all reactions of handlers; false for the epoll variant (Linux): the second event of a round may refer to a socket freed by the first, shown for the daemon model with a dual stack peer."
  },
  {
   "property": "C69",
   "status": "proved",
   "theorems": [
    "Fastd.Poll.C69",
    "Fastd.Poll.C69_exact"
   ],
   "note": "That no task is due when fastd waits is C14."
  },
  {
   "property": "C70",
   "status": "proved",
   "theorems": [
    "Fastd.Config.Gram.C70_keywords",
    "Fastd.Config.Gram.C70_unambiguous",
    "Fastd.Config.Gram.C70_parser",
    "Fastd.Config.Gram.C70_text",
    "Fastd.Config.Gram.C70_written"
   ],
   "note": "The grammar is given by derivation relations following config.y; the LALR automaton is replaced by a recursive descent parser."
  },
  {
   "property": "C71",
   "status": "proved",
   "theorems": [
    "Fastd.Config.Spec.C71"
   ],
   "note": ""
  },
  {
   "property": "C72",
   "status": "proved",
   "theorems": [
    "Fastd.Config.Spec.C72_accepted",
    "Fastd.Config.Spec.C72"
   ],
   "note": "Log levels are modelled but not part of the specification."
  },
  {
   "property": "C73",
   "status": "partial",
   "theorems": [
    "Fastd.Config.Spec.C73_peers",
    "Fastd.Config.Spec.C73_absolute",
    "Fastd.Config.Spec.C73_partial",
    "Fastd.Config.Spec.C73_false"
   ],
   "note": "False in general: a peer file which includes itself ends fastd (maximum config include depth exceeded), also on reload. Proved for files whose inclusions end after less than 10 steps."
  },
  {
   "property": "C74",
   "status": "partial",
   "theorems": [
    "Fastd.Config.Spec.C74_partial",
    "Fastd.Config.Spec.C74_false"
   ],
   "note": "False for marks of more than 32 bits, which are truncated silently. Proved for all others."
  },
  {
   "property": "C75",
   "status": "partial",
   "theorems": [
    "Fastd.Config.Spec.onTokens_stmt",
    "Fastd.Config.Spec.C75_partial",
    "Fastd.Config.Spec.C75_false"
   ],
   "note": "False for up and down: without keyword they are stored as asynchronous, which matters for interfaces created with the connection; with async they are still waited for at the start. Proved for the other events, and for sync."
  },
  {
   "property": "C76",
   "status": "partial",
   "theorems": [
    "Fastd.Config.Spec.C76_accepted_partial",
    "Fastd.Config.Spec.C76_partial",
    "Fastd.Config.Spec.C76_false"
   ],
   "note": "Proved for all command lines without an IPv6 bind address with interface and without a name of an interface that is not accepted; for these it is false (C76_false): use of freed memory in option_bind, and option_interface ignores the result of the check."
  },
  {
   "property": "C77",
   "status": "partial",
   "theorems": [
    "Fastd.Config.Spec.C77_partial",
    "Fastd.Config.Spec.C77_running",
    "Fastd.Config.Spec.C77_lookup",
    "Fastd.Config.Spec.C77_safe",
    "Fastd.Config.Spec.C77_verify",
    "Fastd.Config.Spec.C77_ifaces",
    "Fastd.Config.Spec.C77_verify_false"
   ],
   "note": "Everything but the sentence about --verify-config, for the command lines of C76_partial. --verify-config accepts exactly what C77_verify states; it also accepts configurations without secret and peers, with which fastd does not start (C77_verify_false)."
  },
  {
   "property": "C78",
   "status": "proved",
   "theorems": [
    "Fastd.Config.Spec.C78",
    "Fastd.Config.Spec.C78_running"
   ],
   "note": "For all configuration files (C78), and for all processes started with a command line of C76_partial (C78_running)."
  },
  {
   "property": "C79",
   "status": "partial",
   "theorems": [
    "C79_partial",
    "C79_sockets",
    "C79_least_partial",
    "C79_user",
    "C79_start_partial",
    "C79_commands",
    "C79_off_partial",
    "C79_off_user",
    "C79_false",
    "C79_start_false",
    "C79_off_false",
    "C79_least_false"
   ],
   "note": "False as a whole: a packet mark with a fixed port for one family only, drop capabilities early with interfaces of peers, and drop capabilities no with a user lack privileges; link-local devices keep CAP_NET_RAW without need. Proved for everything else, for command lines in FineArgs."
  },
  {
   "property": "C80",
   "status": "partial",
   "theorems": [
    "Fastd.ShellEnv.C80_partial",
    "Fastd.ShellEnv.C80_up_partial",
    "Fastd.ShellEnv.C80_pre_up_partial",
    "Fastd.ShellEnv.C80_child",
    "Fastd.ShellEnv.C80_verify",
    "Fastd.ShellEnv.C80_false",
    "Fastd.ShellEnv.C80_up_false"
   ],
   "note": "Full for all commands about peers, including on verify, and for the process. on up and on down of the main configuration lack LOCAL_KEY, on pre-up and on post-down get the process ID only and inherit the rest (proved with witnesses)."
  },
  {
   "property": "C81",
   "status": "proved",
   "theorems": [
    "Fastd.Children.C81_owner",
    "Fastd.Children.C81_no_error",
    "Fastd.Children.C81_collected",
    "Fastd.Children.C81_quiet",
    "Fastd.Children.C81_reap"
   ],
   "note": "Invariant over all interleavings of small steps."
  },
  {
   "property": "C82",
   "status": "proved",
   "theorems": [
    "Fastd.Select.C82_accept",
    "Fastd.Select.C82_chosen",
    "Fastd.Select.C82_safe",
    "Fastd.Select.C82_features",
    "Fastd.Select.C82_total"
   ],
   "note": "For all tables with distinct names; instantiated with the tables of a full build for x86."
  },
  {
   "property": "C83",
   "status": "proved",
   "theorems": [
    "Fastd.Connect.C83_connect",
    "Fastd.Connect.C83_immediately",
    "Fastd.Connect.C83_first",
    "Fastd.Connect.C83_start"
   ],
   "note": "Two environments and two reachable states of the daemon model, any harmless events (see C65) in between. The peers are configured (not dynamic) peers, may connect (group limits), are not connected anew within the last 15 s and no other peer uses the addresses. The key exchange is assumed to agree (C31). C83_first and C83_start begin with the task of the peer that sends the first packet, for a peer with a configured address. The examples run two nodes."
  },
  {
   "property": "C84",
   "status": "proved",
   "theorems": [
    "Fastd.Daemon.C84_deliver",
    "Fastd.Daemon.C84_drop",
    "Fastd.Daemon.C84_only",
    "Fastd.Daemon.C84_send",
    "Fastd.Daemon.C84_across"
   ],
   "note": "For events that are handled without error; by C65 the only error of a harmless event is an exit, which happens when a thread cannot be created. That the session at one end decrypts what the one at the other end has encrypted is a hypothesis of C84_across."
  },
  {
   "property": "C85",
   "status": "proved",
   "theorems": [
    "Fastd.Daemon.C85_shutdown",
    "Fastd.Daemon.C85_matched"
   ],
   "note": "delete_peers of src/fastd.c on the daemon model, from every reachable state. The rest of cleanup (closing the interface and the bound sockets, on-down, on-post-down, freeing the configuration) is not part of this. Interfaces of single peers disappear with the peer; their on-down command is not in the log."
  },
  {
   "property": "C86",
   "status": "proved",
   "theorems": [
    "Fastd.Daemon.C86_alternate",
    "Fastd.Daemon.C86_state"
   ],
   "note": "A relation between the states before and after every function of the daemon model, composed over all events; peers are told apart by their id, which is never used again. That the command is run is the effect logged; how it is run is C53 and C80."
  },
  {
   "property": "C87",
   "status": "partial",
   "theorems": [
    "Fastd.Main.C87_pending",
    "Fastd.Main.C87_next",
    "Fastd.Main.C87_cause",
    "Fastd.Main.C87_count",
    "Fastd.Main.C87_fatal",
    "Fastd.Main.C87_cleanup",
    "Fastd.Main.C87_killed",
    "Fastd.Main.C87_ends",
    "Fastd.Main.C87_exit_false",
    "Fastd.Main.C87_exit_partial"
   ],
   "note": "All parts are proved except the last sentence, which is false for the code: a second, different signal to end that is delivered after terminate() has unblocked the signals replaces sig_terminate; raise() then runs the handler and the process exits with status -1 (C87_exit_false). C87_exit_partial shows that this is the only way."
  },
  {
   "property": "C88",
   "status": "proved",
   "theorems": [
    "Fastd.Daemon.C88_status",
    "Fastd.Daemon.C88_method",
    "Fastd.Daemon.C88_macs",
    "Fastd.Daemon.C88_since",
    "Fastd.Daemon.C88_written",
    "Fastd.Daemon.C88_ends"
   ],
   "note": "JSON objects as trees, json-c's conversion to text is not modelled; statistics and names of interfaces are parameters. Sane and Sizes say what inet_ntop and if_indextoname guarantee and which sizes the buffers have."
  },
  {
   "property": "C89",
   "status": "partial",
   "theorems": [
    "Fastd.Net.C89_bind",
    "Fastd.Net.C89_any",
    "Fastd.Net.C89_all",
    "Fastd.Net.C89_open",
    "Fastd.Net.C89_exit_false",
    "Fastd.Net.C89_exit_partial"
   ],
   "note": "All but the last sentence of the statement is proved, with the exception for `any` without IPv6 made explicit in C89_open. A failure of socket() for an IPv4 address ends the process at run time as well (C89_exit_false); it does not for IPv6 addresses (C89_exit_partial)."
  },
  {
   "property": "C90",
   "status": "partial",
   "theorems": [
    "Fastd.Life.C90_success",
    "Fastd.Life.C90_failure",
    "Fastd.Life.C90_once",
    "Fastd.Life.C90_order",
    "Fastd.Life.C90_complete",
    "Fastd.Life.C90_finite",
    "Fastd.Life.C90_progress",
    "Fastd.Life.C90_running_false",
    "Fastd.Life.C90_running_partial"
   ],
   "note": "All but the last sentence is proved. The status is written before the peers are configured and privileges are dropped, both of which may end the daemon (C90_running_false); conversely, every daemon in its main loop has reported (C90_running_partial). The actions of init and cleanup are atomic steps that may fail."
  },
  {
   "property": "C91",
   "status": "proved",
   "theorems": [
    "Fastd.Async.C91_safe",
    "Fastd.Async.C91_results",
    "Fastd.Async.C91_once",
    "Fastd.Async.C91_answered",
    "Fastd.Async.C91_limit",
    "Fastd.Async.C91_progress"
   ],
   "note": "Byte-level model of the datagrams and buffers, with an explicit system of threads; the main thread's two calls of recvmsg are separate steps. Little-endian, 64 bit pointers."
  },
  {
   "property": "C92",
   "status": "proved",
   "theorems": [
    "Fastd.Daemon.C92_no_exit",
    "Fastd.Daemon.C92_runs",
    "Fastd.Daemon.C92_sockets",
    "Fastd.Daemon.C92_start",
    "Fastd.Daemon.Demo.C92_socket_false",
    "Fastd.Daemon.Demo.C92_iface_false"
   ],
   "note": "Total correctness of all event handlers from the invariant; the condition on the clock is that it is below the largest 64-bit value. The _false theorems show that the claim needs the common interface and the bound sockets."
  },
  {
   "property": "C93",
   "status": "proved",
   "theorems": [
    "Fastd.L2tp.C93_family",
    "Fastd.L2tp.C93_tunnel",
    "Fastd.L2tp.C93_session",
    "Fastd.L2tp.C93_get",
    "Fastd.L2tp.C93_delete"
   ],
   "note": "for a little-endian host"
  },
  {
   "property": "C94",
   "status": "partial",
   "theorems": [
    "Fastd.L2tp.C94_safe_partial",
    "Fastd.L2tp.C94_hang_false",
    "Fastd.L2tp.C94_oob_false"
   ],
   "note": "false for messages whose length field is at least 2^31 (endless loop, read outside of the buffer); proved for all others"
  },
  {
   "property": "C95",
   "status": "partial",
   "theorems": [
    "Fastd.L2tp.C95_answer_partial",
    "Fastd.L2tp.C95_send_error_false",
    "Fastd.L2tp.C95_receive_error_false"
   ],
   "note": "false if sending or receiving fails; proved otherwise"
  },
  {
   "property": "C96",
   "status": "proved",
   "theorems": [
    "Fastd.L2tp.C96_init",
    "Fastd.L2tp.C96_free",
    "Fastd.L2tp.C96_update"
   ],
   "note": "for kernels that keep to the Netlink interface (Conform); that tunnel and session have been created, and a created session is deleted, if sending never fails"
  },
  {
   "property": "C97",
   "status": "partial",
   "theorems": [
    "Fastd.L2tp.C97_init_partial",
    "Fastd.L2tp.Demo.C97_selftest_false"
   ],
   "note": "false if sending fails; proved otherwise"
  },
  {
   "property": "C98",
   "status": "proved",
   "theorems": [
    "Fastd.Net.PktInfo.C98_safe",
    "Fastd.Net.PktInfo.C98_v4",
    "Fastd.Net.PktInfo.C98_v6",
    "Fastd.Net.PktInfo.C98_missing"
   ],
   "note": "Linux (USE_PKTINFO), 64 bit, little endian. Safety for arbitrary control data; the address for control messages as the kernel writes them, see Spec/Cmsg."
  },
  {
   "property": "C99",
   "status": "proved",
   "theorems": [
    "Fastd.Net.PktInfo.C99_addresses",
    "Fastd.Net.PktInfo.C99_counts",
    "Fastd.Net.PktInfo.C99_reply4",
    "Fastd.Net.PktInfo.C99_reply6",
    "Fastd.Net.PktInfo.C99_reply_mapped"
   ],
   "note": "The control message is read back by an independent model of the kernel. Counting needs a peer for packets of non-zero size, which all callers give."
  }
 ]
}