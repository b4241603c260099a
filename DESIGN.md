# fastd in Lean 4: design of the model and the proofs

The subject is NeoRaider/fastd as pinned in `/repo` (C). The code is read as text; nothing is built or run. The Lean project is
`/verif/lean`; every module lives in `Verif/`. `properties.jsonl` lists the properties, `MANIFEST.json` says which theorems prove them,
`seeded/LOG.jsonl` records the wrong programs the theorems were tested against.

## Conventions

* Every definition that models C code carries a comment with file and lines in `/repo/src` and says where it simplifies.
* Model files (`Verif/<Area>/X.lean`) contain only the model, `Verif/Spec/*` contains specifications independent of the model (standards, ideal
  objects), `Verif/Props/*` contains the property theorems; helper lemmas live in files named `...Lemmas`, `...Spec` or in the first part of a
  `Props` file. Property theorems are named `Cxx` or `Cxx_...`; theorems that prove only a part of a claim have the suffix `_partial`;
  theorems that refute the full claim for the code as it is are named `..._false` (or stated as a witness in a `Demo` namespace).
* C aborts (`exit_bug`, `exit_fatal`) and undefined behaviour (access outside of an object, use after free, double free, NULL) are explicit
  outcomes (`Except`/`Option`, `Fail.bug`, `Fail.mem`), never silently totalised. Loops without an obvious bound take fuel; running out of
  fuel is an error of its own that is proved not to happen.
* Bytes are `UInt8`, machine words `UInt32`/`UInt64` or `BitVec` where overflow matters; sizes and counters are natural numbers where the
  code keeps them far below the limits of their types, as stated at the definitions. Times are `Int` (milliseconds; `int64_t`).
* Beside each property theorem an `example` gives a concrete non-trivial instance.

## Trusted base

* Lean's kernel (4.33.0). The whole project is replayed by the checker; there is no `sorry`, no `native_decide`, no `bv_decide`, no axiom of our own.
* Axioms: each theorem in `MANIFEST.json` depends on a subset of `propext`, `Classical.choice`, `Quot.sound` (checked with `#print axioms`:
  about two thirds use all three, a third only `propext` and `Quot.sound`, a few only `propext` or none).
* That the model is what the C code does: the transcription was made by hand from the text of the code. This is the largest part of the trusted base.
* The specifications in `Verif/Spec` (FIPS 180-4, RFC 2104, RFC 5869, NIST SP 800-38D, RFC 4418, Salsa20 and the ciphers and
  MACs of the methods (`Spec/Suite`), the key exchange, the ideal window, the ideal task
  queue, the ideal AEAD methods) and the statements of the theorems.
* Mathlib is only used for lemmas and tactics, nothing of it is trusted beyond the kernel check.

## What is modelled

| code | model | level |
|------|-------|-------|
| `methods/common.c`, `common.h` | `Method/Common` | nonce bytes, session validity, reorder window, headers on bytes |
| `methods/generic_poly1305` | `Method/Poly1305` | buffers on bytes; cipher and MAC arbitrary functions (those of fastd: C108) |
| `methods/generic_gmac`, `generic_umac`, `composed_gmac`, `composed_umac`, `cipher_test`, `null`, `null-l2tp` | `Method/Aead` | encryption and decryption on bytes; cipher and MAC arbitrary functions (those of fastd: C108) |
| the daemon with its cryptography | `Daemon/Real` | the parameters of the daemon model replaced by the models of key exchange, key derivation and methods; sessions are chosen among those that are possible; without `null` and `null@l2tp` |
| `offload/l2tp`, `dep/libmnl` (`nlmsg.c`, `attr.c`, `callback.c` as far as used) | `Offload/*` | requests and answers on bytes, sessions, initialisation; the system answers arbitrarily, or as described by `Conform` |
| `methods/*` (`method_create_by_name`) | `Config/MethodNames` | names as C strings, character arrays with sizes |
| `buffer.c`, `buffer.h` | `Buffer/Buf` | storage on bytes, pool as free list |
| buffer use in `receive.c`, `send.c`, `iface.c`, `handshake.c`, methods, `config.c` (sizes) | `Buffer/Path` | which buffers are taken and returned, sizes and offsets; contents and decisions by an oracle |
| `handshake.c`, `handshake.h` | `Handshake/Codec` | packets on bytes: building, parsing, checks |
| `pqueue.c` | `Task/PQueue` | nodes with pointers in a store |
| `task.c` | `Task/Tasks` | on the queue, arbitrary handlers |
| `vector.c`, `vector.h` | `Data/Vector` | cells, capacities, `size_t` arithmetic |
| `bsearch` | `Data/BSearch` | textbook binary search |
| `peer.c` (addresses), `hash.h` | `Daemon/Addr` | addresses by family, hash on bytes |
| `peer_hashtable.c`, MAC table in `peer.c` | `Daemon/HashTable` | buckets, growth; sorted vector with binary search |
| `receive.c` (`backoff_unknown`) | `Daemon/Backoff` | tables |
| `verify.c`, `sem.h` | `Daemon/Verify` | threads as a transition system with arbitrary interleaving |
| `peer.c`, `peer.h`, `resolve.c`, `async.c`, `send.c`, `receive.c`, `iface.c` (reading data), `socket.c` (dynamic sockets), `protocols/ec25519_fhmqvc/*`, reload in `config.c` | `Daemon/State`, `Peers`, `Send`, `PeerTask`, `Proto`, `Events` | state machine over events (packets, timers, DNS and verification results, reloads, data from the interface); peers, sessions and sockets as objects with identity |
| `protocols/ec25519_fhmqvc/*` (key agreement, key derivation, key division, handshake key expiry) | `Protocol/Keys`, `Protocol/Fhmqvc` | curve arithmetic as parameter (`Ecc.Lawful`), bytes hashed exactly |
| `sha256.c`, `hkdf_sha256.c` | `Crypto/Sha256` | 32 bit words |
| `crypto/mac/ghash/builtin` | `Crypto/Ghash` | bytes, tables |
| `crypto/mac/ghash/pclmulqdq` | `Crypto/GhashClmul` | 128 bit vectors, intrinsics |
| `crypto/mac/uhash/builtin` | `Crypto/Uhash` | 64 bit words, memory as bytes |
| `crypto.h` (`secure_memequal`, `block_xor`), `random.c`, `util.c` of the protocol (hex) | `Crypto/Util` | bytes |
| `lex.c` | `Config/Lex`, `Config/Keywords` | input buffer with refills, all tokens |
| `config.c` (interface name patterns), `iface.c` (names) | `Config/Iface` | C strings |
| `config.c`, `fastd.h` (method lists, string stacks) | `Config/Methods` | lists of names |
| `config.y` (grammar) | `Config/Grammar` (derivations), `Config/Parse` (parser) | all rules; the LALR automaton of bison is replaced by recursive descent, proved equivalent to the derivations |
| `config.y` (actions), `config.c` (files, groups, bind addresses, peer directories), `shell.h` | `Config/Exec` | settings, groups, peers; file system, key parser and crypto tables are parameters. Included global and group files are parsed completely before they are executed |
| `options.c`, `options.def.h`, first half of `fastd_configure` | `Config/Options` | the whole command line; `strtol`, ports and bind addresses; `inet_pton` is a parameter |
| `init_config`, `fastd_config_check`, `fastd_config_verify`, `configure_user`, `configure_methods`, `peer_dirs_read_peer_group`, `fastd_peer_group_lookup` | `Config/Check` | start-up from the command line to the checked configuration; the databases of users, `divide_key` and `fastd_method_create_by_name` are parameters |
| `capabilities.c`, `init`, `set_user`, `set_groups`, `write_pid`, `bind_socket`, `fastd_socket_open`, `fastd_peer_reset_socket` | `Config/Caps` | privileges only: which operation needs which capability, credentials of Linux processes, order of the initialisation |
| `shell.c`, callers | `Config/Shell` | which commands fastd waits for |
| `shell.c` (environment, child process), `fastd_peer_set_shell_env`, `do_verify`, `fastd_close_all_fds` | `Shell/Env` | environments as lists and functions, stack buffers as sized memory; the kernel's decisions are parameters |
| `shell.c`, `reap_zombies`, `handle_signals` (`SIGCHLD`), verify threads | `Shell/Children` | small steps of main thread, threads, children and signals in any order |
| `crypto/cipher/ciphers.c.in`, `crypto/mac/macs.c.in`, `cpuid.h` | `Crypto/Select` | tables of ciphers and implementations as data |
| `log.c` | `Log/Format`, `Log/Sink` | sized buffer on bytes, all conversions; text of addresses, destinations |
| `polling.c` | `Poll/Model` | registering, closing and dispatching of descriptors (both variants), handlers arbitrary; time to wait |
| `on_signal`, `init_signals`, `handle_signals`, `run`, `terminate`, `main` loop | `Main/Signals` | one thread and the signals sent to it; what is done between the places where signals matter is one step |
| `status.c`, `protocol_get_current_method`, `describe_peer` | `Daemon/Status` | the JSON object as a tree; the loop over `write` |
| `status.c` (`fastd_status_init`, `fastd_status_close`) | `Main/StatusSock` | system calls of any number of processes as steps; user and group IDs |
| `ec25519_fhmqvc/util.c` (commands for keys), `protocol_init`, `protocol_read_key`, `fastd_random_bytes` | `Protocol/KeyCmd` | output as bytes; libuecc as a parameter |
| `fastd_peer_set_established`, `reset_peer`, `setup_peer`, `delete_peer` with offloading | `Net/PeerIface` | one peer with a trace of interfaces and commands |
| `socket.c` | `Net/Socket` | all options and paths of `bind_socket`, `fastd_socket_bind_all`, `fastd_socket_open`; results of system calls and free descriptors from a tape. Not Android |
| `daemonize`, `init`, `cleanup`, `fastd_main` | `Main/Life` | processes in any order; what each action does is part of other models |
| `receive.c` (`handle_socket_control`, `fastd_receive`), `send.c` (`add_pktinfo`, `fastd_send`), `fastd_stats_add` | `Net/PktInfo` | control messages byte for byte as on 64-bit Linux; `sendmsg` and `recvmsg` have any result |
| `android.c`, its callers in `socket.c`, `iface.c` and `init` | `Net/Android` | messages exchanged with the GUI; kernel and GUI arbitrary |
| `iface.c` (opening and closing on OpenBSD, NetBSD and macOS) | `Net/TunBsd` | the driver decides whether interfaces are created and kept |
| `fastd_stats_add` and its callers, `dump_stats` | `Daemon/Stats` | 64 bit counters; results of `sendmsg` arbitrary |
| `random.c` | `Main/Random` | system calls as a trace, the buffer of `fread` |
| `notify_systemd`, `write_pid` (contents), `time.c` | `Main/Notify` | addresses and messages as bytes, `int64_t` arithmetic |
| `iface.c` (opening and closing on Linux and FreeBSD, reading and writing packets on all systems) | `Net/Tun` | the kernel as tables of interfaces and descriptors; results of system calls from a tape |
| `async.c`, `resolve.c`, `verify.c` (datagrams and threads) | `Async/Model` | byte for byte; `getaddrinfo`, commands, `sendmsg` and `pthread_create` have any result; what the main thread does with results is in `Daemon` |

## What is not modelled

* The daemon model starts from definitions of peers as data, which `Config/Exec` gives. `--help`, `--version`, and what the steps
  of `init` do after `init_config` apart from privileges and random data (`Main/Life` has their order).
* Kernel offloading in the daemon model (it is in `Net/PeerIface` and `Offload`), the parts of `dep/libmnl` that fastd does not use, json-c.
* Implementations of AES and Poly1305 (libraries), and of Salsa20 in libraries: they are parameters of C108, with the assumptions `LibOk` (Salsa20 of libraries is Salsa20, `EVP_aes_128_ctr` is counter mode with some block cipher and does not fail, Poly1305 has 16-byte results). The SSE2 implementations of Salsa20 for x86-64 (C106) and 32-bit x86 (C107) are modelled, with the semantics of the few instructions they use as part of the trusted base (`Crypto/SalsaMachine`, `Crypto/SalsaX86Machine`); its stack frame is separate from other memory, and setting up and removing it is not modelled.
* libuecc: the group operations and the packing of points are a parameter with explicit assumptions `Ecc.Lawful` (shown to be satisfiable).
* System calls: their results are arbitrary (oracle tape `Env.tape` in the daemon model).
* The key exchange in the daemon model uses arbitrary functions for key agreement, key derivation and MAC (`Env`); what these compute is proved
  separately in `Protocol/Fhmqvc`, and `Daemon/Real` puts the modelled functions in their place for C117.
* `ferror` of the configuration file; integer overflow of 64 bit identifiers and times.

## Per property: what is modelled and how it is proved

| id | model | proof |
|----|-------|-------|
| C01 | nonce bytes, window state, clock | invariant over packet histories with a ghost set of accepted numbers; refuted in general |
| C02 | same | refutation by witness, `_partial` for what holds |
| C03 | same | refinement to an ideal window (`Spec/Window`) |
| C04 | `common_init`, `increment_nonce`, `put_common_header`, `session_common_is_valid` | counter as a number, induction over sends |
| C05 | header encode/decode on bytes | round trip |
| C06 | session validity, superseding | invariant over histories |
| C07 | buffer pool with ownership; handlers as programs over it | program logic, induction over peers |
| C08 | buffer as byte array with offset and length | direct |
| C09 | decryption of all methods on the buffer model | byte equality |
| C10 | size formulas and all allocation sites (`Buffer/Path`) | program logic and arithmetic; refutations |
| C11 | reload history of the buffer size | refutation by witness, `_partial` |
| C12, C13 | pairing heap on pointers | representation invariant, refinement to multisets |
| C14 | task queue on the heap | induction on the handling loop |
| C15 | vector with capacity and cells | refinement to lists |
| C16, C17 | addresses | case analysis |
| C18–C22, C35–C42, C44, C65 | daemon state machine | one invariant (`Daemon/Inv`) kept by all events, weakest preconditions; relations between states over time (`History`, `Trail`) |
| C23 | sending data in the daemon model | log of effects of one event |
| C24–C26 | TLV encoder and parser on bytes | round trip, explicit reads |
| C27 | method lists, selection | list lemmas |
| C28 | handshake construction with space accounting | invariant over added records |
| C29, C30 | decision logic of `fastd_handshake_handle` and the protocol handler | case analysis |
| C31 | key agreement over an abstract group | module algebra, hash inputs on bytes |
| C32–C34, C45 | handshake state machine | invariants, decision logic |
| C43 | `backoff_unknown` tables | invariant over histories |
| C46–C49 | SHA-256, HMAC, HKDF, GHASH (two implementations), UHASH | refinement to the standards |
| C50–C52, C59 | comparison, hex, division, random delays | direct |
| C53 | method lists | list lemmas |
| C54, C55, C67 | scanner, keyword table | simulation by a scanner on the whole file; binary search; round trip |
| C56 | semaphore accounting | invariant over interleavings |
| C57 | log formatter | bounds invariant |
| C58 | interface names | string lemmas |
| C60 | task events of the daemon model | rank per peer, induction |
| C61, C62 | IVs and payload methods | injectivity; round trip against an ideal method (`Spec/Aead`) |
| C63 | control header | program logic; refutation |
| C64 | method names | grammar, injectivity |
| C66 | reload | invariant plus exact effect on each peer; refutations |
| C68 | `polling.c` with arbitrary reactions of the handlers | invariant of the tables, induction over a round; refutation for epoll, also in the daemon model |
| C69 | `task_timeout` | arithmetic with the conversion to `int` |
| C70 | grammar and parser | parser sound and complete for the derivations, hence these are unambiguous; combined with C67 |
| C71, C72 | reading of configurations | specification `Spec/Conf`: expansion of inclusions, assignment to groups, meaning of each setting. Simulation by mutual induction over statements and depth, in both directions |
| C73 | peer directories | the parser executes prefixes of broken files; state unchanged in all cases; depth bound; refutation |
| C74, C75 | packet mark, shell commands | corollaries of C72; refutations |
| C76 | command line | specification `Spec/Options`: options stand for statements. Every option function equals the execution of its statement; then C72's simulation over the list of options |
| C77 | start of fastd | specification `Spec/Start` on the items of C72. The groups are a tree (`Config/Tree`: every group but the root has one parent with a smaller number), so that the recursive functions visit each group once; `Config/CheckLemmas` |
| C78 | all peer directories | the same order of groups, and C73 for each of them |
| C79 | privileges | credentials with the rules of capabilities(7); specification `Spec/Caps` of later operations on the items of C72; case analysis over the settings; refutations |
| C80 | environment and process of commands | specification `Spec/ShellEnv` from the manual, case analysis over the occasions, lemmas on sized buffers; refutations for the commands of the main configuration |
| C81 | children | invariant (each child has one owner; ended ones are noticed) over all interleavings; variant for the loop |
| C82 | choice of implementations | induction over table and statements; bits of CPUID |
| C83 | two instances of the daemon model | computations that must succeed (`ConnectSpec`: `must`), from weakest preconditions and the absence of exits; packets as lists of records; lifetime of handshake keys over any events (`Steps.keyIn`) |
| C84 | daemon model, two instances for `C84_across` | `RecvRes` (all outcomes of a data packet) turned into the list of packets written; C23 for what is sent |
| C85 | `delete_peers` on the daemon model | induction on the number of peers with the invariant of reachable states: no peers left, hence nothing refers to any |
| C86 | daemon model | relation `BRel` for every function: the commands logged fit an automaton whose state is whether the peer is established |
| C87 | `Main/Signals`: main thread as program counter, signals pending, blocked or delivered at any time | invariant `J` over all runs together with the shape `Good` of the events at every position; refuted for two different signals to end, `_partial` for what holds |
| C88 | daemon model, `Daemon/Status` | exact result of each function in reachable states, from the invariant and C21; specification of texts and objects in `Spec/Status`. `C88_since`: the time shown is that of the last run of on-establish for the peer, from a relation of the states before and after each function (`Daemon/SinceSpec`) by induction over the run |
| C89 | `Net/Socket`: table of open sockets with their options, every system call may fail; configuration as in C74 and C77 | post-conditions through the chain of options; induction over the addresses; refutation and `_partial` for failures at run time |
| C90 | `Main/Life`: three processes, pipe, list of actions | invariant `J` over all runs; order from the list of actions; decreasing measure; refutation and `_partial` for what comes after the report |
| C91 | `Async/Model`: memory as bytes with or without value, datagrams, threads, semaphore | each write and read computed on a splitting of the buffer; invariant `Inv` over all interleavings; relation `Told` as independent specification |
| C92 | the daemon model; ends of the process by failing system calls (`Fail.exit`) and by a wrong main configuration (`Fail.config`) are explicit outcomes | the weakest precondition of every handler excludes `exit` if nothing is opened for single peers (`Equipped`); invariant: no peer has a socket of its own then |
| C93 | `Offload/Netlink`, `Offload/L2tp`: buffers as bytes, accesses outside of them explicit; `Spec/Netlink`: how the kernel reads and writes messages | each function computed on a splitting of the buffer; reading back what has been written |
| C94 | `Offload/Netlink`: callbacks, attributes and messages of libmnl with 32-bit conversions | induction over messages and attributes; refutations by concrete messages, with any contents of the rest of the buffer |
| C95 | `do_nl` with a queue of datagrams and failing calls | exact result for every list of data messages followed by an acknowledgement |
| C96 | sessions on the sockets of `Net/Socket`; log of requests and answers | post-conditions (`Holds`) of every function for all systems that keep to the interface (`Conform`), composed along the code |
| C97 | initialisation and self-test | as C96; refutation with a system that keeps to the interface but refuses to send |
| C98 | `Net/PktInfo`; `Spec/Cmsg`: how the kernel writes control messages | safety by induction over the offset; the loop is followed along any list of other messages to the first packet info |
| C99 | `Net/PktInfo`; `Spec/Cmsg`: how the kernel reads control messages | exact list of effects of `fastd_send`; what has been written is read back; composition with C98 for replies |
| C100 | `Net/Tun`: table of interfaces with type, MTU and owner | post-condition (`Post`) of `open_iface` for every failing call; what `close` and `SIOCIFDESTROY` undo |
| C101 | `Net/Tun`: packets with and without address family header | case analysis; refutation for every MTU |
| C102 | `Main/StatusSock`: lock file, path, and processes | invariant over all interleavings; progress from every state without a lock; arithmetic of IDs |
| C103 | `Protocol/KeyCmd` on top of `Protocol/Fhmqvc` and `Crypto/Util` | composition of C51 (round trip of keys), C52 (multiples of 8) and C31 (shared keys) |
| C104 | `Net/PeerIface`: trace of one peer | trace accepted by a specification automaton, by invariant over operations |
| C105 | `Log/Sink` on top of `Log/Format` | case analysis; relation between two runs |
| C106 | `Crypto/SalsaXmm`: the instructions of the assembly file; `Crypto/SalsaMachine`: their meaning; `Spec/Salsa20` | symbolic execution of straight-line code; invariants of the four loops |
| C107 | `Crypto/SalsaX86`: the instructions of the assembly file; `Crypto/SalsaX86Machine`: their meaning; `Spec/Salsa20` | as C106; the loop for single blocks is literally the one of the 64-bit implementation |
| C108 | `Method/Suite`: key lengths, `session_init` and `crypt` functions of all methods and ciphers, put together with C48, C49, C62, C106 and C107; `Spec/Suite` | C62 with the proved facts about ciphers and MACs in place of its assumptions; results of assembly are a relation since registers and stack are arbitrary when it is called |
| C109 | `Spec/Suite`: sources of key stream bytes | C04 and injectivity of the inputs of the hash function of Salsa20 and of the counter blocks |
| C110 | `Props/Tunnel`: both ends of a session (`Method/Aead`, `Method/Common`), the network as any sequence of deliveries, repetitions and foreign packets | invariant over all executions: numbers sent are consecutive, payloads received have distinct numbers and are among those sent; `Win` of C02 |
| C111 | `Props/EndToEnd`, no new model | composition of C31 (same secrets), C64 (same method for a name, lifted to pairs of builds by embedding each in the full build), C108 (sessions, packets) |
| C112 | `Net/Android`: `android.c`, the end of `bind_socket`, opening of the interface, and their order in `init`; kernel and GUI are arbitrary | log of events, induction over sockets; refuted for bind addresses and closed connections |
| C113 | `Main/Notify`: `notify_systemd` (address and message), contents of the PID file | meaning of socket addresses as specification, case analysis; refuted for long paths |
| C114 | `Main/Notify`: `fastd_get_time` on `int64_t`, `fastd_timed_out` | arithmetic |
| C115 | `Net/TunBsd`: `open_iface`, `cleanup_iface`, `fastd_iface_open` and `fastd_iface_close` of OpenBSD, NetBSD and macOS | effect of every call on tables of descriptors and interfaces; refuted for drivers that keep interfaces |
| C116 | `Daemon/Stats`: `fastd_stats_add`, `fastd_send` (attempts and counting), `session_send`, `fastd_handle_receive`, `reset_peer` and `dump_stats` | invariant over all sequences of events: counters agree with a log of what was done; the log agrees with the events |
| C117 | `Daemon/Real`: the daemon of C83 and C84 with ec25519-fhmqvc (`Protocol/Fhmqvc`), the methods of C108 (`Method/Suite`), buffers of the sizes of `Buffer/Path`, and methods looked up by name | the assumptions of C83 (same keys, sessions can be created) follow from C31, C111 and C108; those of C84 (what one end encrypts the other one decrypts) from C108, C62 and the first numbers of both directions; sizes by arithmetic over all lists of methods |
| C118 | the daemon of C65 (`Daemon/Proto`: `handleDynamic`, `verifyPeer`, `addDynamic`; `Daemon/Events`: `verifyReturn`); results of the on-verify command are events | a frame relation for the time until which a peer is verified over all functions (`Daemon/VerifySpec`), induction over executions to find the event that approved the peer, and the postcondition of `handleDynamic` in C32; function-level theorem for synchronous commands |
| C119 | `random.c` with the buffer of `fread`, all its callers, the system calls and their results as a trace (`Main/Random`) | invariant: what was given out, followed by the buffer, is what was read; induction over reads and uses |
| C120 | the daemon model: `fastd_peer_handle_task`, `protocol_send`, `session_send` (`Daemon/PeerTask`, `Daemon/Send`) | the invariant bounds the keepalive timeout, C40 gives the task (`C120_scheduled`); forward reasoning along the task, where a peer that was reset stays not established (`Es False`) and the log only grows (`C120_sent`) |

## Findings: claims that are false for the code

Each is proved in Lean with a concrete witness; the `_partial` theorems say what does hold.

* **C01, C02, C03 (common.c:38)**: `is_nonce_valid` tests the parity bit in the wrong byte of the nonce (the most significant one), so that reflected packets of
  the own side are not refused by it, and packets from 2^40 on are refused.
* **C10**: with small MTUs, when data is forwarded between methods of different overhead, and on platforms with multi-AF TUN headers with only
  `cipher-test`, a buffer is too small and fastd aborts. On multi-AF TUN a read is cut by 4 bytes.
* **C11**: in TUN and MULTITAP modes a reload with a peer of larger MTU increases the computed buffer size but not the buffers allocated before.
* **C20**: a reload that configures an address for one peer leaves another peer that is connected from this address where it is.
* **C29**: forged error replies with bad flags, protocol or mode records are answered; chains are still no longer than one answer.
* **C31 (documentation)**: session keys are derived from the public keys in the order X, Y, A, B, not A, B, X, Y as documented (the same on both sides).
* **C33**: after a dynamic peer was removed, a replayed handshake leads to the same session key again.
* **C34**: responses after asynchronous verification do not renew the handshake key before use.
* **C41**: for a dynamic peer an unauthenticated initial handshake which triggers verification keeps a dead connection; a failed synchronous
  verification of such a handshake deletes a connected dynamic peer.
* **C42**: after a reset a second handshake is sent to the same address at once.
* **C43**: the slot index 15 gives an interval of length zero; harmless.
* **C44, C65**: a peer without remotes for which a handshake is scheduled (after `sendmsg` refused packet info) leads to an access to a remote
  that does not exist; a handshake of one peer arriving on the dynamic socket of another one can lead to the use of a closed socket.
* **C46, C48, C49**: lengths from 2^29 bytes (SHA-256 bit count, GHASH abort) and above 2^24 bytes (UHASH refused) are not supported; such packets do not occur.
* **C54**: a number of at least 1024 characters fills the input buffer and is taken for the end of the file, the rest of which is ignored.
* **C57**: an unknown conversion makes the formatter call itself with the message; only reachable by a bug in a caller.
* **C63**: a data packet in a control header is decrypted with misaligned or shifted contents.
* **C66**: a reload ignores changes of the MTU of a peer and of the port of a host name remote.
* **C68 (polling.c:155)**: with epoll, up to 16 events are fetched at once with pointers to the objects. Handling one event can free the socket of a later
  one (e.g. a floating peer with an IPv6 socket of its own completes a handshake by IPv4), which is then used after free. The poll variant is not
  affected since it drops the rest of the round.
* **C73 (config.c:303)**: a peer file which includes itself (or a chain of more than 10 files) calls `exit_error`; on SIGHUP this ends the running daemon, although other
  errors in peer files are only logged.
* **C74 (config.y `packet_mark`)**: marks above 32 bits are accepted and truncated, e.g. `0x100000000` means no mark.
* **C75 (documentation)**: `on up` and `on down` without keyword are stored as asynchronous, so that fastd does not wait for them when the interface of a peer is
  created or destroyed with its connection; with `async` it still waits at the start and the end. `sync` and `async` are not accepted after
  `on pre-up` and `on post-down`.
* Too long method lists abort on start; the environment of a verification is leaked if the limit is reached; `composed_*` methods use arrays of
  length zero for empty packets.
* **C76 (options.c:269-290)**: for `--bind [fe80::1%eth0]:1000` the name of the interface points into `addrstr`, which is freed before `fastd_config_bind_address` copies
  the name. `--interface` with a name that is not accepted is ignored without any message, as `option_interface` does not look at the result of
  `fastd_config_ifname` (options.c:211-213). Besides, `--bind any:` is accepted and means port 0.
* **C77 (config.c:615-618)**: `--verify-config` ("Checks the configuration and exits") accepts configurations with which fastd does not start: without or with
  an invalid secret, without peers, with an unknown user or group, and without the method `null` if it is needed.
* **C79 (capabilities.c:63-66)**: with `packet mark`, a fixed port for one address family and a dynamic one for the other, `CAP_NET_ADMIN` is dropped, and no socket for
  the other family can be opened. **(fastd.c:526-533)**: with `drop capabilities early`, mode `tun` or `multitap`, and peers in the configuration only, `CAP_NET_ADMIN` is
  dropped before the interfaces of these peers are created, so that fastd exits at the start. **(fastd.c:536-537)**: with `drop capabilities no` and a user, the change of
  the user clears the effective capabilities, although the manual says that none are dropped. `CAP_NET_RAW` is kept for link-local addresses, which do not need it.
* **C80 (documentation; fastd.c:178-202)**: the manual promises `FASTD_PID`, `INTERFACE`, `INTERFACE_MTU` and `LOCAL_KEY` for all commands; `on up` and `on down` of the
  main configuration do not get `LOCAL_KEY`, and `on pre-up` and `on post-down` get `FASTD_PID` only (an inherited `INTERFACE` is passed on). `fastd_close_all_fds` tests
  `getrlimit(...) > 0`, which is never true, so that descriptors above the soft limit (if it was lowered) stay open.
* **C87 (fastd.c:652-662)**: `terminate` gives the default action only to the signal noted when it begins, and reads `sig_terminate` again after unblocking the signals. If a
  different signal to end arrived during the clean-up, it is delivered then, `raise` runs the handler, and the process exits with status 255 instead of by a signal.
* **C89 (socket.c:38-42)**: when a socket is opened for a peer at run time (random ports), a failure of `socket(PF_INET, ...)`, e.g. because the limit of open files is
  reached, ends the whole daemon, whereas all other failures, and failures for IPv6, are logged and tried again later. The same holds if `/dev/net/tun`
  cannot be opened for the interface of a peer (iface.c:98-100). Both exits are part of the daemon model. A numeric interface for a link-local address is cut to 32 bits ("4294967297" means interface 1). With `bind any` on a system without
  IPv6, an IPv4 socket is opened for IPv6 peers.
* **C90 (fastd.c:518-540)**: with `--daemon`, the status 0 is reported before the peers are configured and privileges are dropped; if that fails (e.g. the interface of a
  peer cannot be created), the daemon exits although the command reported success. If the interface cannot be opened, fastd exits without on-post-down after on-pre-up.
* **C91 (async.c:94)**: each signal leads to a notification without data, for which an array of length zero is used on the stack (undefined in standard C, harmless with GCC and Clang).
  `resolve_peer` keeps all addresses on the stack of its thread, whose size is not set; a name with some thousand addresses may exceed the 128 KiB of musl. If the queue is full,
  the signal handler logs a message, which is not safe in a signal handler.
* **C92 (socket.c:41, peer.c:423, iface.c:100)**: if a socket or an interface has to be opened for one peer and this fails, the whole process ends, though it could go on with all the other peers (`Demo.C92_socket_false`, `Demo.C92_iface_false`).
* **C94 (libmnl nlmsg.c:152-157)**: `mnl_nlmsg_ok` converts the length of a message to `int`, so that lengths from 2^31 on are accepted. With 0xFFFFFFFD to 0xFFFFFFFF (aligned to 0) the
  same message is read forever (`C94_hang_false`); with e.g. 0x80000004 attributes are looked for outside of the buffer (`C94_oob_false`). Only the kernel, or a process with
  `CAP_NET_ADMIN`, can send such messages. If the length of the last message is not a multiple of 4, up to 3 bytes of the buffer behind the data received may be taken for a part of an attribute.
* **C95 (l2tp.c:74-95)**: `do_nl` returns the negative results of `mnl_socket_sendto` and `mnl_socket_recvfrom` as a `bool`, i.e. as `true`: a request that could not be sent, or whose answer could not be
  received, is taken for a successful one (`C95_send_error_false`, `C95_receive_error_false`; the test `err < 0` in `genl_get_family_id` is never true). After an error that leaves the answer in the
  queue, all later requests get the answer of their predecessor and fail with `EPROTO`.
* **C97 (l2tp.c:260-292)**: for the same reason, the self-test succeeds if none of its requests can be sent (`Demo.C97_selftest_false`). Setting up a session is not affected, since the name of the interface is
  checked in the end (C96).
* **C101 (iface.c:432, 436)**: on FreeBSD, OpenBSD and NetBSD a packet read from a TUN interface has a header of 4 bytes. A buffer for 4 more bytes is allocated, but `read` is called without them: the last bytes of packets that are
  less than 4 bytes shorter than the MTU are cut off (`C101_read_false`). If fewer than 4 bytes are read, the process ends (`exit_bug`).
* C98: the C library's `CMSG_NXTHDR` would loop forever for a message of length 2^64-7 or more (`C98_length_hang`). The kernel never writes one. C99: `fastd_stats_add` without peer and with non-zero size would access a null pointer; there is no such call.
* Documentation: the default log level is `verbose`, the manual says `info`; `log level` changes the levels of all destinations in use.
* **C106**: after 2^38 bytes of one message the SSE2 implementation of Salsa20 numbers blocks wrongly (the known error of this implementation); payloads are never
  that long.
* **C64 (composed_gmac.c:63, composed_umac.c:61)**: a method with the empty name, which the grammar of the configuration allows, leads to an array of size 0 (undefined
  behaviour) in the composed methods (`C64_undef`); it is rejected afterwards if that does no harm.
* **C107**: the 32-bit SSE2 implementation of Salsa20 only uses the low half of the length, which the C prototype declares as `unsigned long long`: of 2^32 bytes none is
  encrypted (`C107_long_false`); payloads are never that long, and `size_t` has 32 bits there.
* **C112 (fastd.c:500-505, android.c:200)**: with Android integration, sockets for bind addresses are opened before the connection to the GUI exists, and are sent for protection
  to descriptor 0 (the initial value of `ctx.android_ctrl_sock_fd`): fastd never starts with a bind address if descriptor 0 is not a socket (`C112_bind_false`). If the GUI closes the
  connection, `read` returns 0 and an uninitialised byte decides if a socket is protected (`C112_eof_false`).
* **C113 (fastd.c:388)**: a `NOTIFY_SOCKET` of more than 108 characters is cut, and the notification goes to another address (`C113_long_false`).
* **C115 (iface.c:347, 417)**: on OpenBSD, NetBSD and macOS fastd never removes interfaces. If the driver keeps an interface that it has created when its device was opened, the interface stays behind when fastd ends; FreeBSD has code for this (`C115_close_false`).

## Testing the theorems

`seeded/LOG.jsonl`: definitions of the model were changed in a scratch copy (wrong boundary, missing case, swapped argument, dropped update), the
project was rebuilt, and the theorems that failed were recorded. Where a change that breaks a claim was not noticed, theorems were tightened.
