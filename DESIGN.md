# MiracleCast: formal model and proofs

Source under study: `/repo` (albfan/miraclecast, C), read as text only.
Model and proofs: Lean 4.33.0 in `lean/` (no axioms of our own, no `sorry`,
no `native_decide`/`bv_decide`).

## Layout

* `lean/Verif/C/…`       – the tiny C vocabulary used by all models (undefined
  behaviour as an outcome, bounds-checked memory blocks, fixed-width wrap-around).
* `lean/Verif/Model/X.lean` – executable model of the C code of topic X. Every
  definition cites the file and lines it models and says what is simplified.
* `lean/Verif/Spec/X.lean` – the specification, independent of the model's helpers
  (small specifications may sit directly in `Props`).
* `lean/Verif/Proof/X.lean` – helper lemmas (no property statements).
* `lean/Verif/Props/X.lean` – the property theorems, a concrete non-trivial instance beside each theorem, and
  the negative witnesses where the code does not have the property.
* `properties.jsonl` – the properties in English. `MANIFEST.json` – property →
  theorem names. `seeded/LOG.jsonl` – mutation log of the theorems.

## Trusted base

* Lean's kernel and, per theorem, at most the axioms `propext`,
  `Classical.choice`, `Quot.sound`.
* The faithfulness of the hand translation C → Lean in `Model/` (each definition
  cites its lines). The C semantics assumed: LP64, little-endian host, two's
  complement, `char` bytes treated as 0..255 unless a comment says otherwise.
* `C/Libc.lean`: contracts of `strtoul`, `strtol`, `atoi`, `strcasecmp`, `isspace` in
  the C locale. `sscanf("%2hhx")` on a lone `0x` differs between libraries; the model has
  a parameter for it and the theorems hold for both.
* `lease_seconds * 0.875` in `double` is exact for the 28-bit numbers it is applied to.
* The network between DHCP client and server (`Dora.udpInput`, `Dora.arrives`): the kernel gives a datagram to the
  socket of the port if length, protocol, port and checksums are right, and routes unicast datagrams to the host that has the
  address; nothing is lost or reordered within one exchange.
* C122: the interpreter of classic BPF is the kernel's contract; that `SO_ATTACH_FILTER` succeeds is not needed for C34, whose theorems hold for every frame.
* C136: how wpa_supplicant splits a command line (first blank ends the command; `SET name value` takes the value verbatim; other commands split at blanks) is a contract, `Spec/Ask.lean`. What it does with `WFD_SUBELEM_SET 0` without a value is left open.
* C142, C143: a message on the bus is delivered before the next event of either program; sd-bus calls succeed; signals about links and of peers that appear or go are left to
  C111 (`Model/Bus`).
* C144-C146: the callbacks of the sink run after the function of the sink that calls them; a failed connection attempt leaves no trace in the sink; a player that exits is no event (the
  controller's handler of SIGCHLD, `src/ctl/ctl-cli.c:277-280`, only prints); a program started in vain (`execvpe` fails) counts as a player.
* C151: Linux reads 15 bytes of `ifr_name`, up to a zero byte or colon, and gives interfaces names of 1 to 15 bytes without either (`dev_ioctl`, `dev_valid_name`).
* C123: GLib's key files and `getopt_long` are contracts (groups of keys with values; options in order); `--res` is given by the numbers `sscanf` reads. C124: the players' `getopts` and wpa_supplicant's are specified as in POSIX.
* C126–C131: `GHashTable` keeps one value per key in some order (the theorems hold for every order); `inet_pton` is a parameter; time is a
  parameter; UDP delivers the packet into the buffer of 1500 bytes, whose rest has arbitrary contents.
* C134: the file system is a tree of directories and files; `mkdir` and `stat` as in POSIX; no links, no `.` and `..`, every directory may be searched; other reasons to refuse a directory are an oracle.
* The link of C121 (`Ipv4ll.Link`): broadcast frames reach every other host in any order within the latency; the kernel answers an ARP
  request for its address if the sender is 0.0.0.0 (a probe), perhaps others; a packet socket for `ETH_P_ARP` does not hear frames of its own
  host. GLib dispatches timers of milliseconds not early, of seconds at most a quarter of a second early, and any time late.
* Library and kernel calls (malloc, memcpy, GLib lists/hash tables, sd-event,
  sockets, readline) are modelled by their documented contract; every one is
  listed in the comment of the definition using it.

Conventions: undefined behaviour (out-of-bounds access, NULL dereference, shift
by ≥ width, use after free, signed overflow) is a distinct outcome (`none` of the
`C` monad, or an explicit constructor). "Never UB" is then a theorem, not an
assumption. malloc failure is an oracle input, fresh memory has arbitrary content.

## Reading the mutation log

`seeded/LOG.jsonl` has one line per edit of a model definition. A line lists where the
build broke (`theorems_failed`). For lines up to the Options module most failures are in
helper lemmas, which stop the build before the property theorem is tried, so such a line
by itself only shows that *some* proof depends on the edited line. Later lines have
`property_theorem_failed` (a theorem named in MANIFEST.json broke), and where given a `witness`: a Lean
term checked against the mutated model that contradicts the property, i.e. shows the statement itself
is sensitive to the edit.

## Plan per property

Where the code was found to violate the property, the plan is: prove the negation
on a concrete reachable witness, and prove the strongest `_partial` statement that
excludes exactly the offending inputs. Those are marked **[violated]**.

| Id | What is modelled | How it is proved |
|----|------------------|------------------|
| C01 | `shl_ring.c` whole file: bytes, start, used, size, malloc oracle, 2^64 wrap | simulation relation ring ~ byte list, induction over operation lists |
| C02 | peek/copy | same relation, per reachable state |
| C03 | same, memory accesses checked | invariant by induction; UB outcome unreachable below 2^63 bytes |
| C04 **[violated]** | `shl_ctoi`, `shl__skip_base`, `shl_atoi_ulln` | digit-fold specification; overflow of the *addition* in the huge phase is swallowed: negation + `_partial` for values whose digit-wise product/sum does not hit that case |
| C05 | the same plus the narrow wrappers | induction on the string |
| C06 **[violated]** | `shl_qstr_join`, `shl__qstr_encode/length`, tokenizer, decoder | round trip by induction over characters with tokenizer state; `'` without white space and empty strings are lost: negation + `_partial` |
| C07 | join buffer as bounds-checked memory | length lemma |
| C08 | tokenizer with cursor/scratch buffer | induction over input |
| C09 | `shl_strsplit_n` | equality with a functional split specification |
| C10 | `shl_dlist.h` over a pointer heap | heap ~ cyclic list relation, induction over operations |
| C11 **[violated]** | `shl_htable.c` open addressing incl. tag bits, deleted markers, doubling, rehash | invariant (probe path property) and multiset refinement; elements get lost when two pointers differ only in the top bit: negation + `_partial` |
| C12 **[violated]** | visit/iteration | count lemma over the slot array |
| C13 | `shl_ratelimit_test` | trace induction |
| C14 **[violated]** | `shl_greedy_realloc*` | arithmetic and memory lemmas |
| C15 | `shl__path_startswith` | component specification |
| C16 **[violated]** | `rtsp.c` parser state machine character by character, the read loop over the ring | every step commutes with appending unread bytes, hence chunk independent; a handler returning -EAGAIN loses bytes: negation + `_partial` |
| C17 | same | invariant of the parser state: buffered bytes = consumed window |
| C18 **[violated]** | serialiser and parser composed, messages built through the API | symbolic run of the parser over the serialised text; unquoted tokens with a double quote or CR, and body tokens with LF, break it: negations + `_partial` for the rest |
| C19 **[violated]** | data frames | size 0 and size > 65535 break framing: negation + `_partial` for 1..65535 |
| C20 **[violated]** | `sanitize_line` (in place, bounds checked) and the message builder | word specification, in-place simulation; CR/LF survive inside quotes and appended lines are not sanitised: negations + what holds |
| C21 **[violated]** | header array with realloc and the three cached pointers | invariant over all parses: with at most 64 headers the cached pointers are live; dangling after the 64th header: negation + `_partial` |
| C22 **[violated]** | bus queues: outgoing, waiting, callbacks, timers (`Model/RtspBus.lean`) | transition system over arbitrary traces; a call that was not sent yet stays in the table when cancelled or timed out, so its callback may run twice or after cancel; two waiting messages with one cookie leave a dangling pointer: negations + `_partial` |
| C23 | cookies | counter invariant; `rtsp_message_set_cookie` excluded (it can collide: witness) |
| C24 | `rtsp_write*` with arbitrary accepted byte counts | trace invariant, progress measure |
| C25 | message builder state machine (open/close header and body, append, seal) | induction over operation sequences against a nesting specification; sealed messages are frozen |
| C26 **[partly violated]** | wpas bus: queue, in-flight flag, cancellation, hang-up (`Model/WpasBus.lean`) | simulation between the bus and a reader of the trace (`Spec.knows`), for all operation sequences; a request given to `wpas_send` shifts the matching: negation |
| C27 **[partly violated]** | append, seal, parse and typed reads (`Model/Wpas.lean`) | composition with the C06/C08 results; strings that C06 loses, names starting with IFNAME= and lines over 16383 bytes: negations + `_partial` |
| C28 **[partly violated]** | `wpas__parse_message` | classification theorem over all datagrams; `atoi` of a huge level is undefined: negation |
| C29 | `wpas_message_dict_read`, `wpas_message_argv_read` | list induction: first entry with exactly the key |
| C30 **[violated]** | `dhcp_get_option` with int/pointer bookkeeping | divergence and OOB witnesses; `_partial` for packets whose items stay inside |
| C31 | same on well-formed option lists | induction over items |
| C32 | `dhcp_end_option`, `dhcp_add_*` | invariant over op sequences |
| C33 | `dhcp_checksum` | modular arithmetic (mod 65535) |
| C34 **[violated]** | `dhcp_recv_l2_packet` + `sanity_check` | witness for small `tot_len` (the frame passes the socket's filter, C122); `_partial` for tot_len ≥ 28; a checksum field of 0xffff (RFC 768's form of 0) is compared, not accepted specially |
| C35 **[violated]** | lease timer arithmetic | omega; milliseconds overflow for leases over 265 days: negation + `_partial` |
| C36 **[partly violated]** | client state machine (`Model/Client.lean`) | trace invariant over all runs; the ACK may name another address: witness |
| C37 **[violated]** | L3 receive path leaves the length zero | theorem: nothing is accepted while renewing; broadcast requests: `_partial` |
| C38 **[violated]** | OFFER/ACK without server id | witness + `_partial` |
| C39 **[violated]** | lease table and handlers (`Model/Server.lean`) | invariant: table exclusive and in range for all runs; takeover of unexpired leases by REQUEST, also among polite clients: negations, shown to be the only way; `_partial` promise without such requests |
| C40 **[violated]** | `send_offer` | OFFER_TIME is entered as an absolute time, so offers have expired at once: negation; `_partial` by counting clients and addresses |
| C41 **[partly violated]** | list and hash table of pointers into a heap of leases | invariant over all runs, freed leases are undefined behaviour; order by expiry breaks after 2038 (32-bit difference): negation + `_partial` |
| C42 | `ipv4ll.c` | arithmetic |
| C43 **[violated]** | `dhcpv6_get_option` | witness + `_partial` |
| C44 **[partly violated]** | line protocol both sides (`Model/DhcpLines.lean`, `Model/P2p.lean`) | effect of each line in any reachable state, composed for a whole lease; unknown lines can announce a connection: witness |
| C45 | groups and helper processes (`Model/P2p.lean`) | invariant over all histories, helpers followed through the log |
| C46 **[violated]** | groups/peers heap with users count | exact characterisation of the undefined steps by an invariant; leak and double free as general theorems; `_partial` for groups without owner |
| C47 | pending peer | invariant, one-step theorems in any reachable state |
| C48 **[violated]** | supervisor of wpa_supplicant (`Model/Super.lean`) | invariant over all histories: exact condition for running; requests lost with a connection block readiness for ever: negation; `_partial` reachability of readiness otherwise |
| C49 | peer public flag and connection state | a reader of the log agrees with the state, for all histories |
| C50 **[partly violated]** | counters, enumeration array (`Model/Wifid.lean`) | invariant over all histories; exact list; result undefined if and only if the path of a link or peer cannot be allocated |
| C51 | `reformat_mac` with sscanf `%2hhx` semantics | idempotence etc. |
| C52 | timers and limiters of the supervisor | the recorded delays equal the answers of an ideal limiter (C13), they are kept, trace bound of starts |
| C53 | resolution tables | for all masks, list lemma |
| C54 **[partly violated]** | session of the sink, `ctl-sink.c` whole file (`Model/Sink.lean`) | exact texts per request in every reachable state (via the writer of C22–C25 and the reader of C88); invariant over runs: PLAY + waiting SETUPs ≤ SETUPs ≤ triggers |
| C55 | `cli_do`, `cli_help`, `cli_handler_fn` over any state (`Model/Cli.lean`) | exact result for all tables and handlers |
| C56 **[partly violated]** | copy of links and peers, `ctl-wifi.c` with the program's functions as parameters (`Model/Mirror.lean`) | refinement to a listener (`Spec.hear`) and invariant, for all message sequences; links with an empty label: witness |
| C57 **[violated]** | sinkctl references (`Model/Sinkctl.lean`, the program behind the copy) | invariant over all event sequences for clean messages (`_partial`); dangling references: witnesses |
| C58 **[violated]** | touch packet builder (`Model/Uibc.lean`), `malloc` with a given number of usable bytes | no packet is ever built inside its buffer: negation for all inputs; `_partial` if `malloc` gives one byte more than asked |
| C59 **[partly violated]** | key packet builder | byte-exact packet for well-formed events; an unreadable second code repeats the first: negation |
| C60 **[violated]** | `str_split` | exact: equal to the fields unless the text ends with the delimiter, and then always undefined |
| C61 **[violated]** | `log_parse_arg` | case theorem; `7up`, `-1` are accepted: witness + `_partial` |
| C62 **[violated]** | `log__time` | arithmetic; wrong if the clock was set back: witness + `_partial` |
| C63 | unaligned accessors | round-trip theorem |
| C64 | `SHL__REAL_MULT`, `SHL__UPCAST_MULT`, `shl_strcat`, `shl_strjoin` | arithmetic |
| C65 **[violated]** | allocation failures of the above | oracle argument, case analysis |
| C66 | raw DHCP frames | byte-exact frame theorem |
| C67 **[violated]** | events and replies through seal, send, parse | the length of the level prefix is missing from `rawlen`, so events are cut: negation; replies: `_partial` |
| C68 **[partly violated]** | match list and `wpas__call` with arbitrary callback behaviour (`Model/WpasMatch.lean`) | induction over the behaviours of the callbacks; removed matches are still called: negation |
| C69 | reading position of received messages | induction over reads, skips and rewinds |
| C70 **[partly violated]** | `ciaddr` in REQUEST and RELEASE, both byte orders | case analysis of a packet in any reachable state; on little-endian machines renewals are not answered and releases ignored: negation for all addresses, `_partial` for big-endian |
| C71 | DISCOVER/REQUEST handshake | case analysis of a packet in any reachable state |
| C72 **[partly violated]** | option values (`Model/OptValue.lean`) | list theorem over option contents; short options read unwritten memory: negation |
| C73 **[partly violated]** | client start/stop (`Model/Client.lean`) | invariant (`Shape`, `Good`) over runs; a second start leaks a timer: witness, `_partial` for users who do not |
| C74 **[partly violated]** | client timers | rank function decreasing at every timer and paying for every message; NAK counter and failing sockets: witnesses |
| C75 **[partly violated]** | client leases | invariant over runs; NAK while rebinding: witness, `_partial` without NAKs |
| C76 **[violated]** | client after socket errors | witness; `_partial` for stop and start |
| C77 **[violated]** | connected flag | invariant under `Spec.tidyRun`; lines after the owner left: witness |
| C78 **[violated]** | `pending` | theorem: only failure, loss, disconnection, a search or teardown end it; witness |
| C79 **[violated]** | capability flags of the supervisor | witness + `_partial` |
| C80 **[violated]** | zoom, scroll and rotate builders | undefined for every input: negation |
| C81 **[violated]** | reading of UIBC input | equal to the lines if none exceeds 254 characters; negation for every input with a longer line |
| C82 **[partly violated]** | objects on the bus | a follower of the signals (`Spec.see`) agrees with the state, for all histories; removal of an object that never was: witness |
| C83 | object paths | escaping and unescaping inverse, injectivity, lookup of own paths in any reachable state |
| C84 **[violated]** | device names | the name of the host is never used: negation for all histories without names set by users; names told = names known: `_partial` |
| C85 **[violated]** | configuration file | settings read back by a line parser; injection by newline: negation for all keys and values, `_partial` without newlines |
| C86 **[partly violated]** | device events | invariants; renames and events without a name: witnesses, exact condition for undefined behaviour |
| C87 **[violated]** | cached properties | invariant; `Managed` is never signalled: negation |
| C88 | reading (`Model/RtspRead.lean`) | exact values for a message at rest (induction over the format), position after a failure, invariance of the text under any reads |
| C89 **[violated]** | descriptors of the sink | counting closes in the log, invariant over runs; general theorem that an established connection is closed twice |
| C90 | flags of the sink | invariant over runs |
| C91 **[partly violated]** | `wfd_uibc_capability` (`strtok`, `sscanf`) | splitting lemma, induction over the parts; witnesses |
| C92 **[violated]** | completion: `get_args`, `completion_fn`, generators | undefined if and only if more than three words are complete; otherwise exact |
| C93 **[violated]** | reading of the list of objects at start | a peer listed before its link ends the reading: witness; `_partial` for orderly lists |
| C94 | sessions of the sink controller | abstraction of all steps to a few primitive ones (`Prim`), invariant relating the observer `Sess` to the variables, no assumption on messages |
| C95 **[violated]** | end of the sink controller | exact condition for undefined behaviour (session running), by a doomed-state argument over the freeing loops |
| C96 **[violated]** | attempts to connect | invariant for an outside that accepts nothing; for every n a run with n attempts |
| C97 **[violated]** | managed links | `run` and `bind`: proved; hotplug: witness |
| C98 **[violated]** | scans at the end | exact requests if no peer is running or pending; witness with a pending peer |
| C99 **[partly violated]** | the calls of the program's functions (`Spec/Told.lean` records them for any program) | a follower of the calls refuses none and knows the lists, by invariant over all messages; the record is shown to change nothing; freeing reports everything gone; a peer connected when announced is reported connected first: witness |
| C100 **[partly violated]** | scanning of the sink controller | step theorem on reachable states: becoming free implies scanning or a request; scanning that ends by itself, or a refused request: witness |
| C101 | the wifi controller (`Model/Wifictl.lean`: commands of `wifictl.c` and the setters of `ctl-wifi.c` over the copy of C56) | an observer (`Spec/Wifictl.lean`: messages heard, own requests granted) and an invariant relating it to the copy; every handler does at most one act and it fits |
| C102 | names and commands of the wifi controller | `meansLink`, `meansPeer` describe meanings by position in the lists; equivalence with the searches; exact effect of every command; `set-friendly-name` only where it is defined (C104) |
| C103 | the selected link | step theorem on reachable states; commands without a name equal those with the label |
| C104 **[violated]** | undefined behaviour of the wifi controller | none if links are announced with their strings (`_partial`); witness otherwise |
| C105 **[violated]** | scans at the end of a session | exact requests in terms of the observer; a granted scan not yet reported is left running: witness |
| C106 **[violated]** | exit status | exact condition; unknown objects count as success: witness |
| C107 | the DHCP helper (`Model/Helper.lean`: `dhcp.c` around the client and the server; an oracle decides which acts fail) | an observer of the interface (`iface`) folded over the log of acts; invariant over all runs of `main`; the packets are those of C44 |
| C108 **[violated]** | renewed leases | reported exactly if address or mask changed (`_partial`); changed gateway or DNS server: witness |
| C109 | end of the DHCP helper | invariant (address unset implies interface untouched) and the shape of the log; exit status exact |
| C110 **[partly violated]** | options of the DHCP helper, `inet_pton` as an automaton | automaton proved equal to dotted quads; exact acceptance; the daemon's command lines; composition with C40/C71; ranges containing the server's address, empty ranges: witnesses |
| C111 **[partly violated]** | the daemon's messages with their contents (`Model/Bus.lean`) heard by a controller (`Model/Mirror.lean`) | refinement: a relation `J` between the daemon's state and what a listener knows, kept by every message and event (using the strengthened C82: every signal fits what is known), then C56; addresses that change while connected and scans that end without a signal: `_partial` with the exact side condition, witnesses |
| C112 **[partly violated]** | a controller that starts late | induction over the enumeration (which lists a link before its peers); the reply is assumed to keep that order (systemd ≥ 250; C93 is the case where it does not) and to be taken between two events |
| C113 **[violated]** | the property `Managed` | negation for all histories: shown as "no" for ever, or as it was when the controller started |
| C114 | the bytes of the DHCP messages (`Model/Dora.lean`: builders, senders and readers of `client.c` and `server.c` over the functions of C11–C14), the kernel's UDP input as a contract (`udpInput`, `arrives`) | the builders keep a `Built` layout (header fields and options); reading back by C13; number/byte-order lemmas for both hosts |
| C115 **[partly violated]** | answers of the server | the same for the answers, composed with any reachable state of C40; on little-endian hosts every server identifier is the address backwards: proved for all exchanges |
| C116 | client (C36) and server (C40) joined by the network | composition of the step theorems of both state machines through the packets; reachable states on both sides |
| C117 **[violated]** | renewing, rebinding, releasing | on little-endian hosts no message of any sequence of timers has an effect on the server until the lease is lost (all histories), RELEASE never arrives; on big-endian hosts rebinding works (`_partial`) |
| C118 **[partly violated]** | the link-local client with times and frames (`Model/Ipv4ll.lean`) | all steps as a relation `Trans` over reachable shapes; invariant tying timer and retry count to the last part of the history (`Sched`); a failing socket is ignored: witness |
| C119 **[partly violated]** | defending an address | state read off the history (`held`, `defending`, `hits`); ordinary questions count as conflicts: witness |
| C120 **[partly violated]** | the getters of the address | invariant; stale after stop: witness |
| C121 **[partly violated]** | any number of hosts on a link, with latency, foreign frames and kernels answering probes | invariant over pairs: of two hosts after the same address, one has a frame on its way (or an answer to one) that arrives before its next timer; a deaf host shares an address: witness |
| C122 | the packet filter of `dhcp_l2_socket` under an interpreter of classic BPF | exactly characterised; it passes whatever `recvL2` accepts from port 67 and all frames of `sendRaw`; it also passes the frame of the C34 violation: witness |
| C123 **[partly violated]** | settings of the three programs: file, options, defaults | exact choice for every setting by induction over the options; `sinkctl`'s `rstp-port` and `external-player` of the file are never used: theorem |
| C124 **[partly violated]** | `argv` of the player and of wpa_supplicant, read back by `getopts` | all values come back; an external player together with an input channel sees none of its options: theorem |
| C125 **[partly violated]** | `supplicant_find` | the first executable one; errors other than a missing file end the search, a directory of that name is taken: examples |
| C126 | DHCPv6 messages (`send_dhcpv6_msg`, `Model/Client6.lean`) | simulation of the writing position by a list of options; reading back uses `getOption_finds` (C43) |
| C127 **[partly violated]** | setters of associations, requests, ids | exact contents of the table of options to send; dropped timers and trailing zeros: theorems |
| C128 **[partly violated]** | `get_addresses` | induction over the sub-options with an abstract accumulator (`absorb`); equal lifetimes, shortened leases, short sub-options: witnesses |
| C129 **[partly violated]** | `get_domains`, server lists | induction over labels and names in the array on the stack; leaving it: theorem for every position |
| C130 | `get_dhcpv6_request` | induction over the requested codes; a relation `Means` says what an option's contents mean |
| C131 **[partly violated]** | `listener_event` for DHCPv6 | equivalence with the specification `Answers` for all states; rapid commit, longer ids, failed `read`, several callbacks: theorems |
| C132 **[partly violated]** | `supplicant_event` and its handlers (`Model/Event.lean`), between C28 (lines) and C45–C47 (peers, groups) | a relation `Says` over structured arguments; segments of text that keep the state of the word reader (`Seg`), so that encoded SSIDs stay inside their quotes; a quote in a device name: witness `name_forges` |
| C133 **[partly violated]** | lines to peers, answers to `P2P_PEER` | composition with the reachable states of C45–C47; a peer filed under its interface address stays for ever (`found_stays`), error texts become peers: witnesses |
| C134 | `shl_mkdir_p`, `shl_mkdir_p_prefix`, start of the daemon (`Model/Mkdir.lean`) | a tree of nodes with arbitrary refusals; the loop over the bytes of the path is matched with the prefixes of the list of names (`loop_eq`), growth of the tree as a transitive relation `Grow` |
| C135 | typed wrappers of the hash table with the memory of the elements (`Model/HtableMap.lean`) | the invariant of C11 speaks only about hashes of elements in the table (`inv_congr`), so memory outside may change; functional map as specification; callers may depend on results (`LegalRun`) |
| C136 | the requests of `wifid-supplicant.c` down to the datagram (`Model/Ask.lean`) | what wpa_supplicant hears (`Spec.hear`, a contract: no quoting, `SET` takes the rest of the line verbatim) compared with what was given; exact condition by lengths of encodings. Violated for texts with white space, quotation marks or backslashes |
| C137 **[partly violated]** | reference counts of busses and messages, `rtsp.c` and `wpas.c` (`Model/Refs.lean`) | books: count of a message = references held + queues it is in + parser, count of the bus = references held + live messages (`Good`); the test in `unref` passes exactly if nobody holds anything (pigeonhole on the queues); leaks: witnesses `rtsp_leaks`, `wpas_leaks` |
| C138 | the session of the sink over the wire: composition of C18 (bytes to messages, now with the iterators at rest) and C54 (messages to reactions) | numbers of source and sink tracked through the six messages (`Spec/Session.lean`); the callbacks of the bus are assumed to accept (they do in this run: C54). That the masks must be usable: `plays_unresolved` |
| C139 | `rtsp_call`, `rtsp_add_match`, `rtsp_remove_match`: the list of C68, but walked with the next element taken after the callback | callbacks as an environment; they do not nest (called from the event loop only). Negations: `removed_still_called`, `removed_once_refuted`, `adding_never_ends` |
| C140 | `wpas_open`, `wpas_create`, `wpas__close` with their sockets: paths, abstract names, sockets as numbers, one process among others | invariants: a path to an own socket belongs to an open bus; clients are numbered. `socket`, `bind`, `connect`, `unlink`, `close` are contracts (`Model/Sockets.lean`; no links, no second spelling of a path, permissions as an oracle for each path). Negations: `create_removes_file`, `close_removes_other` |
| C141 | `rtsp_message_new_from_raw`, `rtsp_message_append_body` with the byte it reads behind the text | the lines of a sealed text are pushed one by one, then `CSeq` is overwritten; compared with what `make` gives on the same bus. Also proves that the loop of `rtsp_message_append_body` does what the parser model (C18) takes it to do (`rawAppendBody_eq`). Negations: `raw_renumbers`, `raw_overread`, `raw_splits`, `raw_data` |
| C142 | `Model/Phone`: daemon (`Model/Event`, `Model/P2p`, `Model/Ask`) and sink controller (`Model/Sinkctl`) with the signals and the call of `Connect` between them | a chain of one-step lemmas from the bytes of the event to the bytes of the request; the order `P2P_CONNECT` is read by `Ask.Spec.hear`. Negations, for all states: `nothing_sent`, `entered_pin_never` |
| C143 | as C142, with the lines of the DHCP helper (`clientLease`) and the timer of the controller | composition of C142 with the group, lease and announcement steps, for both roles in the group and both orders of joining and the server's address. Negation: `lease_before_joining`. Missing: a device connected before |
| C144 | `Model/Show`: `Model/Sinkctl` and `Model/Sink` in one program (what the one does happens to the other), with the command lines of `Model/Settings` | simulation: an invariant between the two states, kept by every primitive step of the controller (`Sinkctl.Prim`) and by every report of the sink (`Sink.Told`); the conversation by C138 |
| C145 | `Model/Phone` and `Model/Show`: the controller of the two is the same | every run of daemon and timer is a run of `Model/Show` without events of the sink (`phone_run`); composition of C143, C144 and C138. Missing: what is missing in C143 |
| C146 | `Model/Show` | invariants of C144; negations `gone_does_nothing` (all connected states) and `keeps_resolution` |
| C147 | `Model/Phone`, `Model/Show` | what the daemon does when a group goes (`Left`), the one signal it sends, what the controller does on it (`down_run`), the program around it by `phone_run`. Missing: the end of a group of the device with other devices in it; negations `removal_crashes`, `helper_gone_crashes` |
| C148 | `Model/Phone` | induction on the rounds; C143 gives the state (`On`) from which C147 starts, and C147 the one (`Meet`) from which C143 starts; groups of either kind, mixed, ended by wpa_supplicant, the DHCP client or the device. Missing: a lease reported before the device joins; groups of this device that end before it leaves |
| C149 | `Model/Whole` | daemon, controller, sink and player as one program; what happens on the connection leaves the session as it is (`Calm`, `live_calm`), the sink follows the controller (`ctl_tied`), induction on the visits; then C145. Missing: what C148 lacks, and that the sink never overruns (refuted, C54) |
| C150 | `Model/P2p` | no handler gives a group another interface or makes one but `groupStarted` (`Sub`), which looks first; induction on the history |
| C151 **[partly violated]** | `if_name_to_index` (`Model/IfName.lean`) | exact characterisation of the interface taken for every name (`index_of`); names of 16 bytes and with a colon: general negations |

Not expressible: none so far (all of the above are expressible); the D-Bus
marshalling, readline, GStreamer process control and the sockets themselves are
outside of the model.
