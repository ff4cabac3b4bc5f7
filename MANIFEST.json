{
 "claims": [
  {
   "property": "C01",
   "status": "proved",
   "theorems": [
    "Verif.Ring.ring_is_fifo",
    "Verif.Ring.ring_push_succeeds_with_memory"
   ],
   "note": "Any call sequence with any malloc-failure pattern; total pushed bytes <= 2^63 (no C object is larger)."
  },
  {
   "property": "C02",
   "status": "proved",
   "theorems": [
    "Verif.Ring.ring_peek_copy"
   ],
   "note": "All reachable states, all copy sizes."
  },
  {
   "property": "C03",
   "status": "proved",
   "theorems": [
    "Verif.Ring.ring_memory_safe",
    "Verif.Ring.align_pow2_overflow_undefined"
   ],
   "note": "UB outcome unreachable below 2^63 bytes; second theorem shows the bound is needed (documented overflow=>0 of SHL_ALIGN_POWER2 is a shift by 64)."
  },
  {
   "property": "C04",
   "status": "partial",
   "theorems": [
    "Verif.Atoi.atoi_success_is_exact_refuted",
    "Verif.Atoi.atoi_outcome",
    "Verif.Atoi.atoi_success_is_exact_partial",
    "Verif.Atoi.atoi_bad_base",
    "Verif.Atoi.atoi_narrow"
   ],
   "note": "Violated: the addition of the last digit may wrap past 2^64 unnoticed (witness proved). Everything else holds for all strings and bases."
  },
  {
   "property": "C05",
   "status": "proved",
   "theorems": [
    "Verif.Atoi.atoi_next",
    "Verif.Atoi.stop_is_longest_run"
   ],
   "note": "All strings, bases, lengths."
  },
  {
   "property": "C06",
   "status": "partial",
   "theorems": [
    "Verif.Qstr.qstr_roundtrip_refuted",
    "Verif.Qstr.qstr_roundtrip_partial"
   ],
   "note": "Violated: a single quote without white space, and empty strings, are lost (witnesses proved). All other lists round-trip."
  },
  {
   "property": "C07",
   "status": "proved",
   "theorems": [
    "Verif.Qstr.qstr_join_in_bounds",
    "Verif.Qstr.qstr_encode_bounded"
   ],
   "note": "All lists with total reserved size up to 10^18, all allocator behaviours."
  },
  {
   "property": "C08",
   "status": "proved",
   "theorems": [
    "Verif.Qstr.qstr_tokenize_exact",
    "Verif.Qstr.qstr_tokens_bounded",
    "Verif.Qstr.qstr_decode_in_place"
   ],
   "note": "All byte strings (up to 10^18 bytes), memory available; out of memory is C65."
  },
  {
   "property": "C09",
   "status": "proved",
   "theorems": [
    "Verif.Str.strsplit_exact",
    "Verif.Str.strsplit_loses_only_separators"
   ],
   "note": "Memory available; input up to 10^18 bytes. Out-of-memory behaviour is C65."
  },
  {
   "property": "C10",
   "status": "proved",
   "theorems": [
    "Verif.Dlist.dlist_refines_sequences",
    "Verif.Dlist.unlink_unlinked_noop",
    "Verif.Dlist.for_each_safe_visits_all"
   ],
   "note": "pointer heap with NULL dereference undefined; any number of lists, any call sequence"
  },
  {
   "property": "C100",
   "status": "partial",
   "theorems": [
    "Verif.Sinkctl.resumes_partial",
    "Verif.Sinkctl.scan_lost"
   ],
   "note": "Whenever the controller becomes free the link is scanning or a request was made. Violated while it stays free: scanning that ends by itself and refused requests are not noticed."
  },
  {
   "property": "C101",
   "status": "proved",
   "theorems": [
    "Verif.Wifictl.requests_fit",
    "Verif.Wifictl.copy_agrees"
   ],
   "note": "For all runs of events from the start. Links with an empty label (path ending in /link/) are excluded: the code cannot find them by label."
  },
  {
   "property": "C102",
   "status": "partial",
   "theorems": [
    "Verif.Wifictl.names_exact",
    "Verif.Wifictl.labels_mean",
    "Verif.Wifictl.link_commands_exact",
    "Verif.Wifictl.peer_commands_exact",
    "Verif.Wifictl.show_exact"
   ],
   "note": "All commands in reachable states. set-friendly-name only for links whose FriendlyName was said (see C104). set-managed takes every word but no for yes; a name starting with @ means the first peer of the link; show finds a link of that name before a peer."
  },
  {
   "property": "C103",
   "status": "proved",
   "theorems": [
    "Verif.Wifictl.selection",
    "Verif.Wifictl.select_exact",
    "Verif.Wifictl.selection_used"
   ],
   "note": "For all runs of events; the label of the selected link must not be empty (nor stop, for p2p-scan) for the last part, which says that a command without a name equals the command with the label."
  },
  {
   "property": "C104",
   "status": "partial",
   "theorems": [
    "Verif.Wifictl.no_crash_partial",
    "Verif.Wifictl.select_crashes"
   ],
   "note": "No undefined behaviour if every announced link comes with FriendlyName and WfdSubelements; violated otherwise: select and set-friendly-name compare with a null pointer."
  },
  {
   "property": "C105",
   "status": "partial",
   "theorems": [
    "Verif.Wifictl.stop_at_exit_partial",
    "Verif.Wifictl.scan_left_running"
   ],
   "note": "Exactly the links the session turned scanning on for and that are reported as scanning; violated in full: a scan that was granted but not yet reported is left running, and one started later by somebody else is stopped."
  },
  {
   "property": "C106",
   "status": "partial",
   "theorems": [
    "Verif.Wifictl.exit_status_partial",
    "Verif.Wifictl.exit_status_misleads"
   ],
   "note": "Exact condition for a negative result; violated in full: unknown objects and unmanaged links are reported as success."
  },
  {
   "property": "C107",
   "status": "proved",
   "theorems": [
    "Verif.Helper.reported_is_set",
    "Verif.Helper.lease_exact",
    "Verif.Helper.client_up_to_date",
    "Verif.Helper.lease_fails",
    "Verif.Helper.quiet_after_failure"
   ],
   "note": "The interface is observed through the acts of the helper and their results; other programs changing it are outside."
  },
  {
   "property": "C108",
   "status": "partial",
   "theorems": [
    "Verif.Helper.lease_reported_partial",
    "Verif.Helper.gateway_change_unreported"
   ],
   "note": "Violated: a renewed lease with the same address and mask but another gateway or DNS server is not reported."
  },
  {
   "property": "C109",
   "status": "proved",
   "theorems": [
    "Verif.Helper.leaves_clean",
    "Verif.Helper.exit_status",
    "Verif.Helper.no_lease_status"
   ],
   "note": "Status 0 says nothing about leases (no_lease_status)."
  },
  {
   "property": "C11",
   "status": "partial",
   "theorems": [
    "Verif.Htable.htable_refines_bag_partial",
    "Verif.Htable.htable_insert_then_lookup_partial",
    "Verif.Htable.htable_loses_element"
   ],
   "note": "bag refinement for all call sequences, hash functions and allocation failures, for pointers sharing their highest set bit; counterexample when they do not; up to 2^29 calls"
  },
  {
   "property": "C110",
   "status": "partial",
   "theorems": [
    "Verif.Helper.accepted",
    "Verif.Helper.ended",
    "Verif.Helper.daemon_server",
    "Verif.Helper.daemon_client",
    "Verif.Helper.daemon_server_serves",
    "Verif.Helper.own_address_offered",
    "Verif.Helper.empty_range"
   ],
   "note": "Proved for the command lines of the daemon; for other options the range may contain the server's own address or be empty (witnesses). Parsed options as getopt_long returns them."
  },
  {
   "property": "C111",
   "status": "partial",
   "theorems": [
    "Verif.Daemon.copy_of_daemon_partial",
    "Verif.Daemon.copy_addresses_partial",
    "Verif.Daemon.copy_scanning_partial",
    "Verif.Daemon.addresses_stale",
    "Verif.Daemon.scanning_stale"
   ],
   "note": "Links, peers, names, sub-elements and connection are exact for all histories. Violated for addresses that change while the peer is connected and for scans that end because the link is unmanaged or its supplicant fails: nothing is sent (witnesses); exact otherwise."
  },
  {
   "property": "C112",
   "status": "partial",
   "theorems": [
    "Verif.Daemon.join_exact",
    "Verif.Daemon.join_then_partial"
   ],
   "note": "Exact at the start, and afterwards as C111. Assumes that the list of objects keeps the order of the enumeration (C93) and falls between two events."
  },
  {
   "property": "C113",
   "status": "partial",
   "theorems": [
    "Verif.Daemon.managed_never_told",
    "Verif.Daemon.managed_only_joined",
    "Verif.Daemon.managed_stale"
   ],
   "note": "Violated for all histories: Managed is never signalled, so a controller shows no, or what was true when it started."
  },
  {
   "property": "C114",
   "status": "proved",
   "theorems": [
    "Verif.Dora.client_heard",
    "Verif.Dora.callbacks_unsent"
   ],
   "note": "Bytes of all messages of the client (DISCOVER, REQUEST, RELEASE), sent as frame or by the kernel, read by the server; any memory contents, both byte orders. The kernel's UDP input and routing are contracts."
  },
  {
   "property": "C115",
   "status": "partial",
   "theorems": [
    "Verif.Dora.answers_come_back",
    "Verif.Dora.others_unanswered",
    "Verif.Dora.identifier_right_partial",
    "Verif.Dora.identifier_reversed",
    "Verif.Dora.identifier_refuted"
   ],
   "note": "Everything but the server identifier is proved for all reachable server states. The identifier is right on big-endian hosts only: get_interface_address returns s_addr in network order and it is converted again; on little-endian hosts every answer carries the address backwards (identifier_reversed, for all exchanges)."
  },
  {
   "property": "C116",
   "status": "proved",
   "theorems": [
    "Verif.Dora.discover_answered",
    "Verif.Dora.request_granted",
    "Verif.Dora.lease_obtained",
    "Verif.Dora.lease_confirmed"
   ],
   "note": "Lease time as the client keeps it: at least 10 s, cut to 28 bits. The exchange is lossless; other clients may be served between the two rounds (discover_answered and request_granted are for any reachable states)."
  },
  {
   "property": "C117",
   "status": "partial",
   "theorems": [
    "Verif.Dora.identifier_unreachable",
    "Verif.Dora.never_renewed_le",
    "Verif.Dora.never_released_le",
    "Verif.Dora.rebound_partial"
   ],
   "note": "Violated on little-endian hosts: the client learned the server's address backwards, so renewals and releases go to another address, and rebinding is not answered because the server compares ciaddr in the wrong order; the lease is lost at its end whatever timers fire. On big-endian hosts rebinding prolongs the lease on both sides (rebound_partial); renewal is not noticed by the client (C37)."
  },
  {
   "property": "C118",
   "status": "partial",
   "theorems": [
    "Verif.Ipv4ll.probed_first_partial",
    "Verif.Ipv4ll.quiet_gets",
    "Verif.Ipv4ll.deaf_claims"
   ],
   "note": "Proved if the ARP socket can be opened and has no errors; otherwise false (deaf_claims): the result of switch_listening_mode is ignored and the client takes an address somebody claims. quiet_gets has no such condition."
  },
  {
   "property": "C119",
   "status": "partial",
   "theorems": [
    "Verif.Ipv4ll.defended_partial",
    "Verif.Ipv4ll.remembers",
    "Verif.Ipv4ll.tries_again",
    "Verif.Ipv4ll.gives_up_partial",
    "Verif.Ipv4ll.questions_count"
   ],
   "note": "Proved with a working socket, except the number of conflicts: ordinary ARP requests for the address held count too (questions_count), so that the client can give up after one real conflict; gives_up_partial is what holds."
  },
  {
   "property": "C12",
   "status": "partial",
   "theorems": [
    "Verif.Htable.htable_iteration_partial",
    "Verif.Htable.htable_refines_bag_partial"
   ],
   "note": "same hypotheses as C11"
  },
  {
   "property": "C120",
   "status": "partial",
   "theorems": [
    "Verif.Ipv4ll.getters_partial",
    "Verif.Ipv4ll.stale_address"
   ],
   "note": "While the address is held the getters are right; after stop (and restart) the old address is still given (stale_address)."
  },
  {
   "property": "C121",
   "status": "partial",
   "theorems": [
    "Verif.Ipv4ll.unique_partial",
    "Verif.Ipv4ll.deaf_shares"
   ],
   "note": "Proved for any number of hosts, all interleavings, with delivery within half a second and working sockets; false for a host whose socket cannot be opened (deaf_shares)."
  },
  {
   "property": "C122",
   "status": "proved",
   "theorems": [
    "Verif.Bpf.filter_exact",
    "Verif.Bpf.filter_loses_nothing",
    "Verif.Bpf.server_frames_pass",
    "Verif.Bpf.short_total_passes"
   ],
   "note": "The filter is characterised exactly; short_total_passes records that the frame of C34's violation passes it."
  },
  {
   "property": "C123",
   "status": "partial",
   "theorems": [
    "Verif.Settings.first_file",
    "Verif.Settings.wifid_settings",
    "Verif.Settings.wifid_ends",
    "Verif.Settings.wifictl_settings",
    "Verif.Settings.sinkctl_settings_partial",
    "Verif.Settings.sinkctl_ignores_file",
    "Verif.Settings.sinkctl_ends",
    "Verif.Settings.autocmd"
   ],
   "note": "Proved for all settings of wifid and wifictl. sinkctl never uses rstp-port and external-player of the file (sinkctl_ignores_file); autocmd words that begin with a dash are outside of the model."
  },
  {
   "property": "C124",
   "status": "partial",
   "theorems": [
    "Verif.Settings.player_told_partial",
    "Verif.Settings.uibc_external_deaf",
    "Verif.Settings.wpas_told",
    "Verif.Settings.intent_used"
   ],
   "note": "Violated for external players with an input channel (uibc_external_deaf)."
  },
  {
   "property": "C125",
   "status": "partial",
   "theorems": [
    "Verif.Settings.found_is_first",
    "Verif.Settings.first_is_found_partial"
   ],
   "note": "Completeness fails behind directories that cannot be looked at and with directories named wpa_supplicant (examples)."
  },
  {
   "property": "C126",
   "status": "proved",
   "theorems": [
    "Verif.Client6.message",
    "Verif.Client6.message_read",
    "Verif.Client6.repeated",
    "Verif.Client6.unknown_id_drops_rest"
   ],
   "note": "The elapsed time is right for clocks that run forward and less than 248 days; a client without an id that is asked to send it drops the rest (unknown_id_drops_rest)."
  },
  {
   "property": "C127",
   "status": "partial",
   "theorems": [
    "Verif.Client6.set_ia_partial",
    "Verif.Client6.set_ia_forgets_timers",
    "Verif.Client6.set_ia_ta",
    "Verif.Client6.set_ias_partial",
    "Verif.Client6.set_ias_invalid",
    "Verif.Client6.set_pd",
    "Verif.Client6.set_oro",
    "Verif.Client6.clear_send",
    "Verif.Client6.duid_identifies"
   ],
   "note": "Violated: without an address the timers of the caller are dropped; after an invalid address the option has trailing zeros."
  },
  {
   "property": "C128",
   "status": "partial",
   "theorems": [
    "Verif.Client6.ia_na_read",
    "Verif.Client6.ia_ta_read",
    "Verif.Client6.ia_pd_read_partial",
    "Verif.Client6.equal_lifetimes_lost",
    "Verif.Client6.shortened_lease_not_seen",
    "Verif.Client6.address_from_next_option",
    "Verif.Client6.timers_behind_buffer",
    "Verif.Client6.getAddresses_safe_partial"
   ],
   "note": "Violated: prefixes with equal lifetimes are lost, a shortened lease is not seen, short sub-options are read from the next option; the address theorems hold for well-formed associations."
  },
  {
   "property": "C129",
   "status": "partial",
   "theorems": [
    "Verif.Client6.domains_read",
    "Verif.Client6.nul_in_label",
    "Verif.Client6.domains_leave_array",
    "Verif.Client6.servers_read"
   ],
   "note": "Violated for malformed lists: labels of 255 bytes lead out of the array, a NUL in a label cuts the name."
  },
  {
   "property": "C13",
   "status": "proved",
   "theorems": [
    "Verif.Ratelimit.ratelimit_is_fixed_window",
    "Verif.Ratelimit.ratelimit_at_most",
    "Verif.Ratelimit.ratelimit_denies_only_bursts",
    "Verif.Ratelimit.ratelimit_unlimited",
    "Verif.Ratelimit.ratelimit_reset",
    "Verif.Ratelimit.ratelimit_define_refuted"
   ],
   "note": "Limiters set up with SHL_RATELIMIT_INIT. The unused SHL_RATELIMIT_DEFINE macro is refuted (never limits)."
  },
  {
   "property": "C130",
   "status": "partial",
   "theorems": [
    "Verif.Client6.request_values"
   ],
   "note": "For replies whose requested options are well formed; malformed ones are covered by the negative theorems of C128 and C129."
  },
  {
   "property": "C131",
   "status": "partial",
   "theorems": [
    "Verif.Client6.reply_partial",
    "Verif.Client6.callback_partial",
    "Verif.Client6.rapid_commit_never",
    "Verif.Client6.longer_id_accepted",
    "Verif.Client6.failed_read",
    "Verif.Client6.confirm_calls_renew"
   ],
   "note": "Violated: rapid commits are never accepted, ids are compared as prefixes, a failed read dereferences NULL, with several callbacks the wrong one may be called."
  },
  {
   "property": "C132",
   "status": "partial",
   "theorems": [
    "Verif.Event.line_means",
    "Verif.Event.says_unique",
    "Verif.Event.ssid_cannot_forge",
    "Verif.Event.tail_cannot_forge",
    "Verif.Event.name_forges",
    "Verif.Event.any_message"
   ],
   "note": "Effects of all event lines and the harmlessness of SSIDs, passphrases and of what follows an address are proved; missing: arguments after the name of a device, which a quote in the name can forge (name_forges proves the negation). The formats of wpa_supplicant are in Spec/Event."
  },
  {
   "property": "C133",
   "status": "partial",
   "theorems": [
    "Verif.Event.lost_line",
    "Verif.Event.found_stays",
    "Verif.Event.found_line",
    "Verif.Event.peer_report",
    "Verif.Event.unknown_command_is_a_peer"
   ],
   "note": "Losing a device and reports are proved; a device found under another address than its device address is never removed and other error texts become peers (both proved as theorems)."
  },
  {
   "property": "C134",
   "status": "proved",
   "theorems": [
    "Verif.Mkdir.mkdir_exact",
    "Verif.Mkdir.prefix_never_made",
    "Verif.Mkdir.startup_exact"
   ],
   "note": "The file system is a contract (POSIX mkdir and stat on a tree, arbitrary refusals); links, . and .., and search permissions are not modelled."
  },
  {
   "property": "C135",
   "status": "partial",
   "theorems": [
    "Verif.HtableMap.uint_is_map_partial",
    "Verif.HtableMap.u64_is_map_partial",
    "Verif.HtableMap.str_is_map_partial",
    "Verif.HtableMap.remembered_right"
   ],
   "note": "Needs all addresses to have the same highest bit, see C11 (htable_loses_element); up to 2^29 calls."
  },
  {
   "property": "C136",
   "status": "partial",
   "theorems": [
    "Verif.Ask.Props.name_heard_partial",
    "Verif.Ask.Props.name_refused",
    "Verif.Ask.Props.name_quoted",
    "Verif.Ask.Props.elements_heard_partial",
    "Verif.Ask.Props.elements_later",
    "Verif.Ask.Props.connect_button",
    "Verif.Ask.Props.connect_pin_partial",
    "Verif.Ask.Props.pin_smuggles",
    "Verif.Ask.Props.connect_refused",
    "Verif.Ask.Props.names_heard_partial",
    "Verif.Ask.Props.scan_heard",
    "Verif.Ask.Props.startup_heard_partial"
   ],
   "note": "exact condition (iff) for each text to be heard as given: no white space, quotation mark or backslash; violated otherwise (name_quoted, pin_smuggles). wpa_supplicant's reading of a line is a contract"
  },
  {
   "property": "C137",
   "status": "partial",
   "theorems": [
    "Verif.Refs.Props.refs_safe",
    "Verif.Refs.Props.refs_depth",
    "Verif.Refs.Props.refs_held",
    "Verif.Refs.Props.bus_release",
    "Verif.Refs.Props.msg_release",
    "Verif.Refs.Props.wpas_release",
    "Verif.Refs.Props.wpas_recovers",
    "Verif.Refs.Props.rtsp_leaks",
    "Verif.Refs.Props.wpas_leaks"
   ],
   "note": "Safety and the exact condition of release are proved for all histories. Partial: dropping the last reference does not always free (rtsp_leaks, wpas_leaks prove it). Simplified: counts do not overflow; a waiting message is removed by its own entry (C22, C23)."
  },
  {
   "property": "C138",
   "status": "proved",
   "theorems": [
    "Verif.Session.session_comes_up",
    "Verif.Session.plays_unresolved"
   ],
   "note": "All hypotheses are part of the statement. The messages of the source are made and parsed by the models of C18; how a message reaches the sink (Spec.event) follows rtsp_incoming_message and rtsp_call_reply."
  },
  {
   "property": "C139",
   "status": "partial",
   "theorems": [
    "Verif.RtspMatch.Props.dispatch_order_partial",
    "Verif.RtspMatch.Props.dispatch_until",
    "Verif.RtspMatch.Props.remove_last",
    "Verif.RtspMatch.Props.dispatch_removes",
    "Verif.RtspMatch.Props.dispatch_cleans",
    "Verif.RtspMatch.Props.removed_still_called",
    "Verif.RtspMatch.Props.removed_once_refuted",
    "Verif.RtspMatch.Props.adding_never_ends"
   ],
   "note": "All histories and behaviours. Partial: a removed match is still called for the same message, a match removed twice in a callback loses one registration only, and callbacks that add matches can keep the bus busy for ever (all three proved)."
  },
  {
   "property": "C14",
   "status": "partial",
   "theorems": [
    "Verif.Str.greedy_sound",
    "Verif.Str.greedy0_sound",
    "Verif.Str.greedy_requests",
    "Verif.Str.greedyT_sound_partial",
    "Verif.Str.greedyT_overflow_refuted"
   ],
   "note": "Byte variants proved for needs up to 2^63. Element variants only while the byte size fits size_t; beyond that the product wraps (witness proved)."
  },
  {
   "property": "C140",
   "status": "partial",
   "theorems": [
    "Verif.Sockets.Props.open_exact",
    "Verif.Sockets.Props.open_failed",
    "Verif.Sockets.Props.create_exact",
    "Verif.Sockets.Props.names_differ",
    "Verif.Sockets.Props.nothing_left",
    "Verif.Sockets.Props.no_descriptor_left",
    "Verif.Sockets.Props.others_untouched",
    "Verif.Sockets.Props.create_removes_file",
    "Verif.Sockets.Props.close_removes_other"
   ],
   "note": "All histories. Partial: making a server removes any file that is not a listening socket at its path, and closing removes what is at the path then, even another's socket (both proved)."
  },
  {
   "property": "C141",
   "status": "partial",
   "theorems": [
    "Verif.Rtsp.raw_roundtrip_partial",
    "Verif.Rtsp.raw_renumbers",
    "Verif.Rtsp.raw_overread",
    "Verif.Rtsp.raw_splits",
    "Verif.Rtsp.raw_data"
   ],
   "note": "Full round trip up to the number. Refuted: CSeq is replaced by the next number of the bus (replies lose their request), one byte behind a text/parameters body is read, quoted line breaks split headers, data frames are not understood."
  },
  {
   "property": "C142",
   "status": "partial",
   "theorems": [
    "Verif.Phone.accepted_partial",
    "Verif.Phone.nothing_sent",
    "Verif.Phone.button_accepted",
    "Verif.Phone.pin_accepted",
    "Verif.Phone.entered_pin_never"
   ],
   "note": "Proved whenever the daemon is free and the proposal can be taken; refuted otherwise (for all states): a PIN to be entered here, or another attempt under way, means nothing is sent and the controller waits."
  },
  {
   "property": "C143",
   "status": "partial",
   "theorems": [
    "Verif.Phone.connects_partial",
    "Verif.Phone.connects_owner_partial",
    "Verif.Phone.lease_before_joining"
   ],
   "note": "Proved for both roles in the group. Refuted if the lease is reported before the device is seen to join the group. Missing: a device that was connected before."
  },
  {
   "property": "C144",
   "status": "proved",
   "theorems": [
    "Verif.Show.in_step",
    "Verif.Show.player_told",
    "Verif.Show.session_plays",
    "Verif.Show.announces"
   ],
   "note": "For all runs of controller and sink together. The player's command line is read back with the getopt specification of C126."
  },
  {
   "property": "C145",
   "status": "partial",
   "theorems": [
    "Verif.Show.request_to_picture_partial",
    "Verif.Show.request_to_picture_owner_partial"
   ],
   "note": "Both roles in the group. Missing, as in C143: a device that was connected before, and a lease reported before the device is seen to join (refuted, Verif.Phone.lease_before_joining)."
  },
  {
   "property": "C146",
   "status": "partial",
   "theorems": [
    "Verif.Show.one_player",
    "Verif.Show.ends_with_session_partial",
    "Verif.Show.gone_does_nothing",
    "Verif.Show.keeps_resolution"
   ],
   "note": "The code does not do the rest: gone_does_nothing refutes it for every connected state, keeps_resolution on a concrete session."
  },
  {
   "property": "C147",
   "status": "partial",
   "theorems": [
    "Verif.Phone.group_removed_ends_partial",
    "Verif.Phone.helper_gone_ends_partial",
    "Verif.Phone.leaving_ends",
    "Verif.Show.removal_ends_picture_partial",
    "Verif.Show.helper_gone_ends_picture_partial",
    "Verif.Show.leaving_ends_picture",
    "Verif.Phone.removal_crashes",
    "Verif.Phone.helper_gone_crashes"
   ],
   "note": "Refuted when a group of this device ends with a device in it: removal_crashes, helper_gone_crashes. Missing in group_removed_ends_partial and helper_gone_ends_partial: other devices in the group of the device."
  },
  {
   "property": "C148",
   "status": "partial",
   "theorems": [
    "Verif.Phone.again_and_again_partial",
    "Verif.Phone.round_partial"
   ],
   "note": "Groups of either kind, mixed. Missing: a lease reported before the device is seen to join; groups of this device that end before the device leaves (use after free, removal_crashes)."
  },
  {
   "property": "C149",
   "status": "partial",
   "theorems": [
    "Verif.Whole.whatever_they_do_partial",
    "Verif.Whole.still_shown_partial",
    "Verif.Whole.visit_partial",
    "Verif.Whole.turn_plays_partial"
   ],
   "note": "Missing: what C148 lacks; the sink can be made to overrun its buffers (C54), which the theorem names as the only exception."
  },
  {
   "property": "C15",
   "status": "proved",
   "theorems": [
    "Verif.Str.path_startswith_iff",
    "Verif.Str.path_startswith_rest"
   ],
   "note": "All strings."
  },
  {
   "property": "C150",
   "status": "proved",
   "theorems": [
    "Verif.P2p.one_group_per_interface",
    "Verif.P2p.found_by_interface",
    "Verif.P2p.removed_by_interface"
   ],
   "note": "All histories; local_removal_undefined (C46) and C147 no longer assume it."
  },
  {
   "property": "C151",
   "status": "partial",
   "theorems": [
    "Verif.IfName.right_interface_partial",
    "Verif.IfName.existing_found",
    "Verif.IfName.long_name_wrong",
    "Verif.IfName.colon_wrong",
    "Verif.IfName.socket_closed"
   ],
   "note": "Refuted for names of 16 bytes (long_name_wrong) and names with a colon (colon_wrong)."
  },
  {
   "property": "C16",
   "status": "partial",
   "theorems": [
    "Verif.Rtsp.chunking_irrelevant_partial",
    "Verif.Rtsp.eagain_from_callback_loses_bytes"
   ],
   "note": "All streams, all chunkings, all callbacks that do not return -EAGAIN; with one that does, bytes are lost (proved negation)."
  },
  {
   "property": "C17",
   "status": "partial",
   "theorems": [
    "Verif.Rtsp.receiver_consistent_partial",
    "Verif.Rtsp.callback_error_ends_stream_partial",
    "Verif.Rtsp.undefined_only_if_headers_moved_partial"
   ],
   "note": "EFAULT impossible and only available bytes consumed, every delivered message sealed, a failing callback ends the stream with its error; for all streams on which the run is defined: it is undefined only through the header pointer bug of C21. A callback returning -EAGAIN is excluded (C16)."
  },
  {
   "property": "C18",
   "status": "partial",
   "theorems": [
    "Verif.Rtsp.wire_roundtrip_partial",
    "Verif.Rtsp.quote_breaks_framing",
    "Verif.Rtsp.token_injects_header",
    "Verif.Rtsp.body_line_split"
   ],
   "note": "Any sequence of requests, replies and data frames built through the API round-trips byte-exactly under any chunking, for names, tokens and phrases that survive the quoting (Spec.Sendable) and at most 61 headers or a receiver whose allocator does not move arrays. Negations: tokens with a double quote or CR but no white space, body tokens with LF."
  },
  {
   "property": "C19",
   "status": "partial",
   "theorems": [
    "Verif.Rtsp.wire_roundtrip_partial",
    "Verif.Rtsp.empty_frame_swallows",
    "Verif.Rtsp.long_payload_cut"
   ],
   "note": "Proved for 1..65535 payload bytes and channels below 256, any chunking, anywhere in a stream. Violated for empty payloads (witness) and for every length above 65535 that is not a multiple of 65536 (general theorem)."
  },
  {
   "property": "C20",
   "status": "partial",
   "theorems": [
    "Verif.Sanitize.sanitize_exact",
    "Verif.Sanitize.sanitized_form",
    "Verif.Sanitize.sanitize_idempotent",
    "Verif.Sanitize.sanitize_keeps_newline_in_quotes",
    "Verif.Rtsp.token_injects_header"
   ],
   "note": "Sanitising proved exact, safe and idempotent; the statement is false inside of double quotes (witness), and what a caller appends is not sanitised: a token with a CR arrives as two headers (witness)."
  },
  {
   "property": "C21",
   "status": "partial",
   "theorems": [
    "Verif.Rtsp.undefined_only_if_headers_moved_partial",
    "Verif.Rtsp.stale_pointer_reachable",
    "Verif.Rtsp.construction_defined_partial",
    "Verif.Rtsp.many_headers_undefined"
   ],
   "note": "Pointers are live below 62 received header lines, or 63 headers built through the API, or if the array does not move; 65 headers reach a stale pointer on both sides (proved negations)."
  },
  {
   "property": "C22",
   "status": "partial",
   "theorems": [
    "Verif.RtspBus.call_completes_at_most_twice_partial",
    "Verif.RtspBus.started_call_completes_once_partial",
    "Verif.RtspBus.callback_runs_twice",
    "Verif.RtspBus.cancelled_call_completes",
    "Verif.RtspBus.completion_has_own_reply",
    "Verif.RtspBus.silent_after_hup",
    "Verif.RtspBus.cancelled_started_call_silent_partial",
    "Verif.RtspBus.distinct_cookies_clean",
    "Verif.RtspBus.clean_is_defined",
    "Verif.RtspBus.shared_cookie_dangles"
   ],
   "note": "The code violates the claim for calls whose transmission has not begun (callback may run twice, also after cancel: witnesses). Proved for every trace: at most twice; once and never after cancel for started calls; own reply only; silence after hang-up; no stale pointer unless two waiting calls share a cookie (witness for that)."
  },
  {
   "property": "C23",
   "status": "proved",
   "theorems": [
    "Verif.RtspBus.queued_cookie_set",
    "Verif.RtspBus.cookies_distinct",
    "Verif.RtspBus.completed_with_local_cookie",
    "Verif.RtspBus.set_cookie_collides"
   ],
   "note": "For programs that do not set cookies by hand (rtsp_message_set_cookie can collide: witness) and fewer than 2^63 messages."
  },
  {
   "property": "C24",
   "status": "proved",
   "theorems": [
    "Verif.RtspBus.wire_in_order",
    "Verif.RtspBus.writes_complete",
    "Verif.RtspBus.peer_drops_unsent_call"
   ],
   "note": "All traces; omitted messages are those cancelled, timed out or answered before their transmission was begun."
  },
  {
   "property": "C25",
   "status": "proved",
   "theorems": [
    "Verif.Rtsp.construction_follows_nesting",
    "Verif.Rtsp.construction_writes_document",
    "Verif.Rtsp.refused_call_changes_nothing",
    "Verif.Rtsp.refused_append_keeps_prefix",
    "Verif.Rtsp.sealed_for_good",
    "Verif.Rtsp.sealed_refuses",
    "Verif.Rtsp.frame_follows_rules"
   ],
   "note": "All sequences of building calls on any constructed message: return values, contents, refused calls, sealed messages. Assumes allocation succeeds; sealing 63 or more headers can be undefined (C21)."
  },
  {
   "property": "C26",
   "status": "partial",
   "theorems": [
    "Verif.WpasBus.replies_matched_partial",
    "Verif.WpasBus.one_in_flight",
    "Verif.WpasBus.callback_once",
    "Verif.WpasBus.cookies_distinct",
    "Verif.WpasBus.cancelled_silent",
    "Verif.WpasBus.silent_after_hup",
    "Verif.WpasBus.next_is_written",
    "Verif.WpasBus.reply_is_delivered",
    "Verif.WpasBus.sent_request_shifts",
    "Verif.WpasBus.call_after_hup_never",
    "Verif.WpasBus.written_only_if_taken"
   ],
   "note": "All runs with fewer than 2^64-1 calls. Holds for requests issued as calls; a request handed to wpas_send also gets a reply, which is taken for the reply to the next call (sent_request_shifts). A call on a dead bus is accepted and never completes."
  },
  {
   "property": "C27",
   "status": "partial",
   "theorems": [
    "Verif.Wpas.request_roundtrip_partial",
    "Verif.Wpas.request_roundtrip_refuted",
    "Verif.Wpas.long_request_truncated"
   ],
   "note": "Round trip through seal, wire, parser and typed reads for all requests whose strings C06 allows, whose name does not start with IFNAME= and that fit the 16383 byte receive buffer; violated otherwise (empty strings, single quotes without white space, IFNAME= names, truncation)."
  },
  {
   "property": "C28",
   "status": "partial",
   "theorems": [
    "Verif.Wpas.datagram_splits",
    "Verif.Wpas.event_delivered",
    "Verif.Wpas.reply_delivered",
    "Verif.Wpas.angle_never_reply",
    "Verif.Wpas.request_delivered",
    "Verif.Wpas.event_level_undefined"
   ],
   "note": "Exact classification of every datagram on both sides; for a level beyond INT_MAX the code calls atoi with an unrepresentable value (undefined), hence partial."
  },
  {
   "property": "C29",
   "status": "proved",
   "theorems": [
    "Verif.Wpas.dict_lookup",
    "Verif.Wpas.dict_lookup_unique",
    "Verif.Wpas.dict_lookup_number",
    "Verif.Wpas.argv_position"
   ],
   "note": ""
  },
  {
   "property": "C30",
   "status": "partial",
   "theorems": [
    "Verif.Options.getOption_safe_partial",
    "Verif.Options.getOption_loops_forever",
    "Verif.Options.getOption_overrun_undefined",
    "Verif.Options.getOption_overload_out_of_bounds"
   ],
   "note": "The full claim is false for the code: three machine-checked counterexamples (endless loop, signed overflow, read behind the packet). Proved for every packet whose options stay inside the buffer and do not use overload, truncated or not."
  },
  {
   "property": "C31",
   "status": "proved",
   "theorems": [
    "Verif.Options.getOption_first_occurrence"
   ],
   "note": "All legal layouts including overload, all codes and packet lengths."
  },
  {
   "property": "C32",
   "status": "proved",
   "theorems": [
    "Verif.Options.build_options"
   ],
   "note": "Any sequence of requests on both byte orders."
  },
  {
   "property": "C33",
   "status": "proved",
   "theorems": [
    "Verif.Wire.checksum_is_rfc1071",
    "Verif.Wire.checksum_verifies",
    "Verif.Wire.checksum_detects",
    "Verif.Wire.checksum_overflow"
   ],
   "note": "for buffers of at most 64 KiB (callers pass at most 656 bytes); beyond that the int32 accumulator overflows (checksum_overflow)"
  },
  {
   "property": "C34",
   "status": "partial",
   "theorems": [
    "Verif.Wire.recvL2_safe_partial",
    "Verif.Wire.recvL2_complete",
    "Verif.Wire.recvL2_short_total_undefined",
    "Verif.Wire.recvL2_drops_rfc768_frame",
    "Verif.Wire.recvL2_stale_cookie"
   ],
   "note": "full statement is false: a frame with IP total length below 28 makes the memcpy length wrap (witness). Proved for all other frames. Also found: frames with UDP checksum 0xffff standing for zero are dropped; the cookie check reads the caller's uninitialised packet"
  },
  {
   "property": "C35",
   "status": "partial",
   "theorems": [
    "Verif.Timers.timers_ordered",
    "Verif.Timers.getLease_value",
    "Verif.Timers.getLease_short_option_undefined",
    "Verif.Timers.retrans_partial",
    "Verif.Timers.phases_short",
    "Verif.Timers.retrans_long_lease_wrong"
   ],
   "note": "Order of T1 < T2 < expiry for every packet; retransmission schedule proved for leases up to 265 days, refuted for longer ones (32-bit overflow)."
  },
  {
   "property": "C36",
   "status": "partial",
   "theorems": [
    "Verif.Client.lease_sound",
    "Verif.Client.request_carries_offer",
    "Verif.Client.ack_other_address"
   ],
   "note": "Proved for all runs: a lease is reported only on an ACK for the own hardware address and transaction while a request is outstanding, and a request that names a server carries what that server offered. Refuted: the address reported is the one in the ACK, which need not be the one offered (ack_other_address); renewals then ask for the offered one."
  },
  {
   "property": "C37",
   "status": "partial",
   "theorems": [
    "Verif.Client.renewal_ignores_answers",
    "Verif.Client.renewal_ignores_answers_witness",
    "Verif.Client.ack_accepted_partial"
   ],
   "note": "Refuted: in the renewing state every packet is ignored (renewal_ignores_answers, with a reachable state). Proved: requests sent by broadcast (first request, after reboot, rebinding) accept every proper ACK, with lease time and timers."
  },
  {
   "property": "C38",
   "status": "partial",
   "theorems": [
    "Verif.Client.recv_defined_partial",
    "Verif.Client.offer_without_server_crashes",
    "Verif.Client.ack_without_server_crashes"
   ],
   "note": "Proved: complete packets (server id, four byte lease time, whole address lists) are processed without undefined behaviour in every reachable state. Refuted: an OFFER or ACK without server id is read through a null pointer."
  },
  {
   "property": "C39",
   "status": "partial",
   "theorems": [
    "Verif.Server.table_exclusive",
    "Verif.Server.kept_or_stolen",
    "Verif.Server.stolen_always",
    "Verif.Server.held_partial",
    "Verif.Server.exclusive_refuted",
    "Verif.Server.exclusive_refuted_polite",
    "Verif.Server.discover_ends_lease"
   ],
   "note": "The table never holds an address or a client twice and stays in range (full). As a promise to clients the property fails: a REQUEST by a client without lease takes over an unexpired address (exclusive_refuted, stolen_always), also among clients that only ask for what they were offered (exclusive_refuted_polite). kept_or_stolen shows this is the only way; held_partial is the promise without such requests."
  },
  {
   "property": "C40",
   "status": "partial",
   "theorems": [
    "Verif.Server.reserved_refuted",
    "Verif.Server.reserved_partial",
    "Verif.Server.offer_sound"
   ],
   "note": "Fails: OFFER_TIME is entered as absolute time 300, so every offer has expired at once (reserved_refuted). reserved_partial: the offer stays reserved if there are more usable addresses than clients and nobody asks for the address by name. offer_sound: no unexpired lease of another client is offered."
  },
  {
   "property": "C41",
   "status": "partial",
   "theorems": [
    "Verif.Server.index_consistent",
    "Verif.Server.ordered_partial",
    "Verif.Server.ordered_refuted",
    "Verif.Server.refused_only_if_full_partial"
   ],
   "note": "Index agreement and absence of dangling leases proved for all runs; the order by expiry holds as long as clock and expiries stay below 2^31 (2038), after which the 32-bit difference in compare_expire breaks it (ordered_refuted)."
  },
  {
   "property": "C42",
   "status": "proved",
   "theorems": [
    "Verif.Timers.randomIp_range",
    "Verif.Timers.randomIp_ends",
    "Verif.Timers.randomIp_onto",
    "Verif.Timers.randomDelay_range",
    "Verif.Timers.randomDelay_zero"
   ],
   "note": "Address range and delay for every sequence of random numbers."
  },
  {
   "property": "C43",
   "status": "partial",
   "theorems": [
    "Verif.Dhcp6.getOption_safe_partial",
    "Verif.Dhcp6.getOption_reads_behind_packet",
    "Verif.Dhcp6.getOption_finds",
    "Verif.Dhcp6.getSubOption_safe"
   ],
   "note": "The walker reads up to three bytes behind the packet (witness); safe if those are readable."
  },
  {
   "property": "C44",
   "status": "partial",
   "theorems": [
    "Verif.P2p.packet_reads",
    "Verif.P2p.lease_reads",
    "Verif.P2p.local_line",
    "Verif.P2p.gateway_line",
    "Verif.P2p.lease_connects",
    "Verif.P2p.remote_line",
    "Verif.P2p.other_line_partial",
    "Verif.P2p.line_safe"
   ],
   "note": "Every packet of the helper is read back as letter and value; the effect of L, G and R lines is exact, and a lease makes the owner connected. Missing: unknown lines change no address but may announce a peer as connected (example), so 'no effect' is false; failing allocations inside the helper are not modelled."
  },
  {
   "property": "C45",
   "status": "proved",
   "theorems": [
    "Verif.P2p.subnets_distinct",
    "Verif.P2p.helpers_distinct",
    "Verif.P2p.helpers_sound",
    "Verif.P2p.group_creation"
   ],
   "note": "For all histories without undefined behaviour (C46 says which have it)."
  },
  {
   "property": "C46",
   "status": "partial",
   "theorems": [
    "Verif.P2p.undefined_exactly",
    "Verif.P2p.users_partial",
    "Verif.P2p.local_removal_undefined",
    "Verif.P2p.leave_effect",
    "Verif.P2p.last_member_partial",
    "Verif.P2p.owner_leaves_leak",
    "Verif.P2p.stopped_clears"
   ],
   "note": "Refuted: removal of a group this device owns while a peer is in it is a double free (local_removal_undefined); an owner that leaves leaks the group (owner_leaves_leak). Proved: no peer points at a freed group, exact characterisation of the undefined steps, exact effect of leaving; groups without owner are freed exactly with their last member."
  },
  {
   "property": "C47",
   "status": "proved",
   "theorems": [
    "Verif.P2p.pending_live",
    "Verif.P2p.connect_busy",
    "Verif.P2p.connect_pbc",
    "Verif.P2p.pending_cleared"
   ],
   "note": "For all histories without undefined behaviour."
  },
  {
   "property": "C48",
   "status": "partial",
   "theorems": [
    "Verif.Super.ready_iff",
    "Verif.Super.announcements",
    "Verif.Super.never_stuck",
    "Verif.Super.recovers_partial",
    "Verif.Super.never_ready_again",
    "Verif.Super.stop_loses",
    "Verif.Super.exit_in_setup",
    "Verif.Super.stop_in_setup",
    "Verif.Super.ready_despite_failure"
   ],
   "note": "First half holds with 'answered' for 'answered successfully' (ready_iff; refuted for success by ready_despite_failure: the FAIL reply of every setup request counts as an answer). Second half is refuted: setup requests whose connection closed before the reply stay counted in setup_cnt, so the supplicant is never ready again, not even after stop and start (never_ready_again, exit_in_setup, stop_in_setup); recovers_partial is the rest. ++setup_cnt is modelled without overflow."
  },
  {
   "property": "C49",
   "status": "proved",
   "theorems": [
    "Verif.P2p.signals_sound"
   ],
   "note": "Spec.follows reads the whole log as a client does."
  },
  {
   "property": "C50",
   "status": "partial",
   "theorems": [
    "Verif.Wifid.counts",
    "Verif.Wifid.enumerate_exact",
    "Verif.Wifid.enumerate_undefined"
   ],
   "note": "For all histories the counters equal the numbers of objects and, if memory suffices, the enumeration is exact, without repetition and inside its array. Violated when memory is short: if the path of a link or peer cannot be allocated, r is returned uninitialised (undefined, exactly characterised)."
  },
  {
   "property": "C51",
   "status": "proved",
   "theorems": [
    "Verif.Mac.reformat_canonical",
    "Verif.Mac.reformat_needs_18",
    "Verif.Mac.reformat_variants",
    "Verif.Mac.reformat_idempotent",
    "Verif.Mac.reformat_injective"
   ],
   "note": "For either reading of %2hhx on a lone 0x."
  },
  {
   "property": "C52",
   "status": "proved",
   "theorems": [
    "Verif.Super.restart_policy",
    "Verif.Super.exec_policy",
    "Verif.Super.delays_kept",
    "Verif.Super.one_process",
    "Verif.Super.spawns_bounded",
    "Verif.Super.connect_delays",
    "Verif.Super.hangup_counts_twice"
   ],
   "note": "For all histories of the supervisor, with a monotone clock below 2^64 us. The bound on starts counts from the last start by the user, which resets the limiters by design. hangup_counts_twice records that a hang-up of a shared connection uses two tokens."
  },
  {
   "property": "C53",
   "status": "proved",
   "theorems": [
    "Verif.Wfd.getRes_lowest",
    "Verif.Wfd.setFormat_chooses",
    "Verif.Wfd.default_hh_mask_has_unknown_bit",
    "Verif.Wfd.default_masks_known",
    "Verif.Wfd.genMask_spec"
   ],
   "note": "The tables of the specification file were transcribed from the code (the Wi-Fi Display specification is not available offline)."
  },
  {
   "property": "C54",
   "status": "partial",
   "theorems": [
    "Verif.Sink.options_exact",
    "Verif.Sink.get_exact",
    "Verif.Sink.set_exact",
    "Verif.Sink.set_defined",
    "Verif.Sink.answered_once",
    "Verif.Sink.setup_reply_exact",
    "Verif.Sink.no_play_without_setup",
    "Verif.Sink.public_is_quoted",
    "Verif.Sink.twice_answered",
    "Verif.Sink.long_value_undefined",
    "Verif.Sink.teardown_unanswered",
    "Verif.Sink.play_after_refusal",
    "Verif.Sink.play_other_url",
    "Verif.Sink.old_url_reused"
   ],
   "note": "Exact texts of the replies and requests for OPTIONS, GET_PARAMETER, SET_PARAMETER and the SETUP reply in every reachable state; one reply per known numbered request; PLAY <= SETUP <= triggers in all runs. Refuted: requests of other methods (and without CSeq) get no reply; the status of the SETUP reply is ignored; PLAY may name another URL; the URL survives reconnects; the Public list is sent in quotes; an extension named like a fixed parameter is answered twice; a line of 512 bytes overruns the buffer."
  },
  {
   "property": "C55",
   "status": "proved",
   "theorems": [
    "Verif.Cli.dispatch_exact",
    "Verif.Cli.one_handler",
    "Verif.Cli.unknown_reported",
    "Verif.Cli.told_unknown",
    "Verif.Cli.help_exact",
    "Verif.Cli.line_exact"
   ],
   "note": "All tables, handlers (as arbitrary state transformers), lines and states. Declared counts are not negative (true of both tables)."
  },
  {
   "property": "C56",
   "status": "partial",
   "theorems": [
    "Verif.Mirror.copy_follows",
    "Verif.Mirror.copy_wellformed",
    "Verif.Mirror.empty_label_duplicates"
   ],
   "note": "Proved for all message sequences and all programs that leave the copy alone, except that links with an empty label (which wifid never announces) are not unique: refuted by empty_label_duplicates."
  },
  {
   "property": "C57",
   "status": "partial",
   "theorems": [
    "Verif.Sinkctl.references_valid_partial",
    "Verif.Sinkctl.dangling_session",
    "Verif.Sinkctl.dangling_pending",
    "Verif.Sinkctl.stuck_session"
   ],
   "note": "Violated: a peer whose WfdSubelements become empty is ignored when it is removed, so running_peer and pending_peer dangle (witnesses: the timers then follow them). Proved for all sequences of events whose messages announce each interface of an object once, announce links with WfdSubelements and FriendlyName (otherwise strcmp of NULL), and never empty the WfdSubelements of a peer. Missing: those messages."
  },
  {
   "property": "C58",
   "status": "partial",
   "theorems": [
    "Verif.Uibc.touch_never",
    "Verif.Uibc.touch_overread",
    "Verif.Uibc.touch_partial",
    "Verif.Uibc.touch_zero",
    "Verif.Uibc.touch_refused"
   ],
   "note": "Violated: every accepted touch event writes one byte behind its allocation (touch_never, for all inputs), a pointer count larger than the tokens reads behind the token array (touch_overread), a count of zero gives a packet of zeros (touch_zero). touch_partial: exact packet when malloc gives at least one extra byte and the count is positive and covered by tokens."
  },
  {
   "property": "C59",
   "status": "partial",
   "theorems": [
    "Verif.Uibc.key_partial",
    "Verif.Uibc.key_safe",
    "Verif.Uibc.key_refused",
    "Verif.Uibc.key_repeated"
   ],
   "note": "key_partial: exact packet for well-formed events. key_safe: inside the buffer. Violated: malformed second code repeats the first (key_repeated) instead of an empty packet."
  },
  {
   "property": "C60",
   "status": "partial",
   "theorems": [
    "Verif.Uibc.split_partial",
    "Verif.Uibc.split_overflow",
    "Verif.Uibc.fields_spec"
   ],
   "note": "split_partial: exact tokens unless the text ends with the delimiter; then str_split always writes behind its array (split_overflow)."
  },
  {
   "property": "C61",
   "status": "partial",
   "theorems": [
    "Verif.Log.parseArg_names",
    "Verif.Log.parseArg_numbers",
    "Verif.Log.parseArg_word_partial",
    "Verif.Log.parseArg_other_partial",
    "Verif.Log.parseArg_accepts_junk"
   ],
   "note": "Names and decimal numbers proved; a word that is no severity and starts with no blank, sign or digit gives level 0 (parseArg_word_partial); text with a numeric prefix and negative numbers are accepted (witness)."
  },
  {
   "property": "C62",
   "status": "partial",
   "theorems": [
    "Verif.Log.time_partial",
    "Verif.Log.time_wrong_after_clock_change",
    "Verif.Log.initTime_once"
   ],
   "note": "Exact when the clock was not set back; witness otherwise."
  },
  {
   "property": "C63",
   "status": "proved",
   "theorems": [
    "Verif.Wire.load_be",
    "Verif.Wire.load_le",
    "Verif.Wire.store_be",
    "Verif.Wire.store_le"
   ],
   "note": "all widths, both host byte orders"
  },
  {
   "property": "C64",
   "status": "proved",
   "theorems": [
    "Verif.Atoi.mult_exact",
    "Verif.Str.strcat_exact",
    "Verif.Str.strjoin_exact",
    "Verif.Str.strcat_too_long"
   ],
   "note": "All operands / strings whose total length fits size_t; longer ones refused."
  },
  {
   "property": "C65",
   "status": "partial",
   "theorems": [
    "Verif.Str.strsplit_oom_refuted",
    "Verif.Str.strsplit_oom_partial",
    "Verif.Qstr.qstr_oom_refuted",
    "Verif.Qstr.qstr_oom_partial"
   ],
   "note": "Violated: the token copy is not checked for NULL. Failures of the vector allocation are reported."
  },
  {
   "property": "C66",
   "status": "proved",
   "theorems": [
    "Verif.Wire.raw_frames_interoperate"
   ],
   "note": ""
  },
  {
   "property": "C67",
   "status": "partial",
   "theorems": [
    "Verif.Wpas.event_truncated_refuted",
    "Verif.Wpas.event_truncated",
    "Verif.Wpas.reply_roundtrip_partial"
   ],
   "note": "Violated: wpas_message_seal keeps the length of the text without the <level> prefix, so the last bytes of every event are not sent; replies of several arguments arrive as one. Proved: exactly how much is lost, and the round trip of replies of one plain argument."
  },
  {
   "property": "C68",
   "status": "partial",
   "theorems": [
    "Verif.WpasMatch.dispatch_order_partial",
    "Verif.WpasMatch.dispatch_all",
    "Verif.WpasMatch.remove_last",
    "Verif.WpasMatch.dispatch_removes",
    "Verif.WpasMatch.dispatch_adds",
    "Verif.WpasMatch.removed_still_called",
    "Verif.WpasMatch.removed_once_refuted",
    "Verif.WpasMatch.added_sometimes_called"
   ],
   "note": "Order, at-most-once and the final list are proved; refuted: a match removed during a dispatch is still called for that message, and removing one of two equal matches twice in a callback removes only one."
  },
  {
   "property": "C69",
   "status": "proved",
   "theorems": [
    "Verif.Wpas.reading_position",
    "Verif.Wpas.rewind_restarts",
    "Verif.Wpas.reply_for_received"
   ],
   "note": "Formats of sscanf with out-of-range numbers are undefined behaviour and excluded by the hypothesis that the uses have a result."
  },
  {
   "property": "C70",
   "status": "partial",
   "theorems": [
    "Verif.Server.renewal_partial",
    "Verif.Server.renewal_refuted",
    "Verif.Server.renewal_unanswered",
    "Verif.Server.release_partial",
    "Verif.Server.release_refuted",
    "Verif.Server.decline_removes"
   ],
   "note": "ciaddr is compared without ntohl: holds on big-endian machines only; on little-endian machines renewals are not answered and releases ignored (renewal_unanswered, release_refuted). DECLINE proved for both."
  },
  {
   "property": "C71",
   "status": "proved",
   "theorems": [
    "Verif.Server.discover_offers",
    "Verif.Server.request_acked",
    "Verif.Server.handshake",
    "Verif.Server.offer_sound",
    "Verif.Server.offer_usable",
    "Verif.Server.ack_sound",
    "Verif.Server.nak_sound",
    "Verif.Server.foreign_ignored",
    "Verif.Server.inform_answered"
   ],
   "note": ""
  },
  {
   "property": "C72",
   "status": "partial",
   "theorems": [
    "Verif.OptValue.option_text_in_bounds",
    "Verif.OptValue.addresses_reported_partial",
    "Verif.OptValue.text_reported_partial",
    "Verif.OptValue.request_values_partial",
    "Verif.OptValue.short_option_undefined",
    "Verif.OptValue.odd_option_extra_value"
   ],
   "note": "option_text_in_bounds: the text buffer is never overrun. For options whose length is a multiple of four (addresses) or of text type the values are exactly the option's content. Refuted in general: an option shorter than its element type reads unwritten memory (short_option_undefined), a length that is not a multiple gives an extra value (odd_option_extra_value)."
  },
  {
   "property": "C73",
   "status": "partial",
   "theorems": [
    "Verif.Client.stopped_silent_partial",
    "Verif.Client.release_sound",
    "Verif.Client.double_start_leaks"
   ],
   "note": "Proved for all runs in which the client is started only while it is stopped. Refuted for a second start without a stop: the first timer is leaked and fires after the stop."
  },
  {
   "property": "C74",
   "status": "partial",
   "theorems": [
    "Verif.Client.never_stuck_partial",
    "Verif.Client.start_gives_up",
    "Verif.Client.offer_gives_up",
    "Verif.Client.gives_up_without_lease",
    "Verif.Client.timers_end",
    "Verif.Client.naks_break_retry_count",
    "Verif.Client.stuck_without_socket"
   ],
   "note": "Proved provided sockets can be opened: never hangs, bounded number of timers and messages in each phase, termination from every state. Refuted: after repeated NAKs a phase has up to 255 DISCOVERs; a failing socket at the expiry of a lease leaves the client without timers."
  },
  {
   "property": "C75",
   "status": "partial",
   "theorems": [
    "Verif.Client.lost_sound",
    "Verif.Client.lease_end_told_partial",
    "Verif.Client.nak_loses_lease_silently"
   ],
   "note": "Proved if no NAK is received: while the user holds a lease its expiry is scheduled and will be reported; lease-lost is reported to holders only. Refuted: a NAK while rebinding ends the lease silently."
  },
  {
   "property": "C76",
   "status": "partial",
   "theorems": [
    "Verif.Client.socket_error_deaf",
    "Verif.Client.restart_listens_partial"
   ],
   "note": "Refuted: switch_listening_mode does nothing if the mode is unchanged, so after a socket error all further attempts are made without listening. Proved: stop and start recover."
  },
  {
   "property": "C77",
   "status": "partial",
   "theorems": [
    "Verif.P2p.connected_linked_partial",
    "Verif.P2p.local_tidy",
    "Verif.P2p.tidy_compute"
   ],
   "note": "Refuted in general: lines that arrive after the owner was told to disconnect make it connected without a group (examples). Proved for histories in which owners stay in their groups."
  },
  {
   "property": "C78",
   "status": "partial",
   "theorems": [
    "Verif.P2p.pending_stays"
   ],
   "note": "Refuted: a successful attempt stays pending until the peer disconnects or is lost, a new search starts or the supplicant goes away (pending_stays and the examples after it)."
  },
  {
   "property": "C79",
   "status": "partial",
   "theorems": [
    "Verif.Super.capabilities_partial",
    "Verif.Super.stale_capabilities"
   ],
   "note": "Refuted: has_p2p and has_wfd are never cleared, a later process without P2P inherits them (stale_capabilities). What remains: wifi-display only with P2P, P2P only after some process said so."
  },
  {
   "property": "C80",
   "status": "partial",
   "theorems": [
    "Verif.Uibc.gesture_overread",
    "Verif.Uibc.gestures_unreachable"
   ],
   "note": "Violated: the zoom, scroll and rotate builders read behind the token array for every input; main never calls them. For touch and key see C58, C59."
  },
  {
   "property": "C81",
   "status": "partial",
   "theorems": [
    "Verif.Uibc.inputs_partial",
    "Verif.Uibc.inputs_cut"
   ],
   "note": "inputs_partial: lines of at most 254 characters. Violated for every longer line (inputs_cut)."
  },
  {
   "property": "C82",
   "status": "partial",
   "theorems": [
    "Verif.Wifid.followers_exact",
    "Verif.Wifid.signals_sound"
   ],
   "note": "For all histories. Missing: objects may be reported as removed that never existed (failed link_new); witness."
  },
  {
   "property": "C83",
   "status": "proved",
   "theorems": [
    "Verif.Wifid.paths_differ",
    "Verif.Wifid.link_found",
    "Verif.Wifid.peer_found",
    "Verif.Wifid.found_public"
   ],
   "note": "Interface indices below 2^32 (the C type). Labels without link number (not generated by the daemon): a peer that is not public hides a public one, witness."
  },
  {
   "property": "C84",
   "status": "partial",
   "theorems": [
    "Verif.Wifid.names_told_partial",
    "Verif.Wifid.host_ignored"
   ],
   "note": "Violated: without a name set by a user wpa_supplicant gets Miracle/unknown, never the host name (general theorem). Proved: the name told is the friendly name known to followers, for all histories."
  },
  {
   "property": "C85",
   "status": "partial",
   "theorems": [
    "Verif.Wifid.config_exact_partial",
    "Verif.Wifid.config_injection"
   ],
   "note": "Exact settings if no text has a newline. Violated otherwise: a newline in FriendlyName injects any setting (general theorem and witness)."
  },
  {
   "property": "C86",
   "status": "partial",
   "theorems": [
    "Verif.Wifid.lazy_unmanaged",
    "Verif.Wifid.rely_tag",
    "Verif.Wifid.interface_partial",
    "Verif.Wifid.undefined_iff"
   ],
   "note": "Lazy mode and tags proved. Chosen interface: only without renames (witness of the violation). Undefined (strcmp with NULL) exactly for nameless events of a known device when an interface is chosen."
  },
  {
   "property": "C87",
   "status": "partial",
   "theorems": [
    "Verif.Wifid.cache_right_partial",
    "Verif.Wifid.managed_untold"
   ],
   "note": "InterfaceName, FriendlyName and WfdSubelements for all histories. Violated for Managed, which is never signalled (general theorem)."
  },
  {
   "property": "C88",
   "status": "proved",
   "theorems": [
    "Verif.Rtsp.parameter_exact",
    "Verif.Rtsp.header_exact",
    "Verif.Rtsp.whole_value_exact",
    "Verif.Rtsp.failed_read_rests",
    "Verif.Rtsp.reading_keeps_text",
    "Verif.Rtsp.hex_read_back"
   ],
   "note": "Undefined only when a number in a token does not fit 32 bits (sscanf). The exact theorems are for a message at rest; failed_read_rests and reading_keeps_text hold for any position and any sequence of reads."
  },
  {
   "property": "C89",
   "status": "partial",
   "theorems": [
    "Verif.Sink.descriptors_partial",
    "Verif.Sink.closed_twice"
   ],
   "note": "Never closed while in use, never leaked, at most twice; exactly once is refuted: every established connection is closed by the bus and by the sink."
  },
  {
   "property": "C90",
   "status": "proved",
   "theorems": [
    "Verif.Sink.flags_consistent"
   ],
   "note": "Invariant over all runs."
  },
  {
   "property": "C91",
   "status": "partial",
   "theorems": [
    "Verif.Sink.uibc_port_partial",
    "Verif.Sink.uibc_none_off",
    "Verif.Sink.uibc_stale_port",
    "Verif.Sink.uibc_none_keeps"
   ],
   "note": "Port parts without an earlier part beginning with p, and none; refuted for beginnings of port= (sscanf returns -1) and for port=none."
  },
  {
   "property": "C92",
   "status": "partial",
   "theorems": [
    "Verif.Cli.generators_exact",
    "Verif.Cli.complete_command",
    "Verif.Cli.complete_undefined_iff",
    "Verif.Cli.complete_partial",
    "Verif.Cli.names_offered"
   ],
   "note": "Violated: with four complete words on the line completion_fns[3] is read, outside the array; exactly then. Otherwise the offered words are exact."
  },
  {
   "property": "C93",
   "status": "partial",
   "theorems": [
    "Verif.Mirror.fetch_complete_partial",
    "Verif.Mirror.peer_first_lost"
   ],
   "note": "Refuted: a peer listed before its link ends the reading with -EBUSY. Proved for lists in which links precede their peers."
  },
  {
   "property": "C94",
   "status": "proved",
   "theorems": [
    "Verif.Sinkctl.session_discipline"
   ],
   "note": "For all outsides and event sequences (no assumption on messages), for runs without undefined behaviour. running/stopped are assignments of running_peer recorded by the model."
  },
  {
   "property": "C95",
   "status": "partial",
   "theorems": [
    "Verif.Sinkctl.exit_defined_partial",
    "Verif.Sinkctl.exit_in_session"
   ],
   "note": "Violated: the sink is freed before the links, whose removal closes it. exit_defined_partial says exactly when: the end is defined iff no session is running (for clean messages as in C57)."
  },
  {
   "property": "C96",
   "status": "partial",
   "theorems": [
    "Verif.Sinkctl.three_attempts_partial",
    "Verif.Sinkctl.endless_attempts"
   ],
   "note": "Violated: a connection that is accepted by connect() but not established is tried again at once, without limit (endless_attempts, for every n). Proved (number and pauses) if no connection is ever accepted."
  },
  {
   "property": "C97",
   "status": "partial",
   "theorems": [
    "Verif.Sinkctl.run_managed_partial",
    "Verif.Sinkctl.hotplug_unmanaged"
   ],
   "note": "Violated: a link that appears under the bound name is used even if it is not managed. Proved for the commands run and bind."
  },
  {
   "property": "C98",
   "status": "partial",
   "theorems": [
    "Verif.Sinkctl.scans_stopped_partial",
    "Verif.Sinkctl.exit_scans"
   ],
   "note": "Exact list of scans stopped at the end, told by the requests made and agreed to; with a pending peer scanning is started again (exit_scans)."
  },
  {
   "property": "C99",
   "status": "partial",
   "theorems": [
    "Verif.Mirror.told_once_partial",
    "Verif.Mirror.told_gone",
    "Verif.Mirror.connected_before_new"
   ],
   "note": "Every object is announced and ended exactly once and in order, for all programs and messages, and everything is ended when the copy is freed. Violated: a peer that is connected when announced is reported connected before it is reported new, and never reported new if another interface of it is ill-typed."
  }
 ]
}
