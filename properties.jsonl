{"id": "C01", "title": "Ring buffer is a FIFO byte queue", "statement": "After any sequence of push, pull, flush and clear calls on a ring (starting from the zeroed ring, any of the allocations possibly failing) the bytes held by the ring are exactly those of an ideal FIFO byte queue fed the same calls: push appends at the end or, when it reports out of memory, changes nothing; pull(n) drops the min(n, length) oldest bytes; flush and clear empty it; the reported length is the queue length.", "quantifier": "all finite call sequences, all byte contents and sizes, all allocation-failure patterns", "why_tests_cant": "The interesting states (wrap-around at every offset, growth while wrapped, growth while exactly full) depend on the whole history of sizes; tests only exercise a few offsets.", "anchors": ["src/shared/shl_ring.c:shl_ring_push", "src/shared/shl_ring.c:shl_ring_pull", "src/shared/shl_ring.c:shl_ring_flush", "src/shared/shl_ring.c:shl_ring_clear", "src/shared/shl_ring.c:ring_resize", "src/shared/shl_ring.c:ring_grow"]}
{"id": "C02", "title": "Ring peek and copy show the queue without consuming it", "statement": "In every reachable state peek yields zero, one or two memory segments whose concatenation is exactly the queue content, in order, with no empty segment; copy of n bytes returns exactly the first min(n, length) bytes; neither changes the queue.", "quantifier": "all reachable ring states, all requested copy sizes", "why_tests_cant": "The two-segment case depends on the exact wrap position, reachable by unboundedly many histories.", "anchors": ["src/shared/shl_ring.c:shl_ring_peek", "src/shared/shl_ring.c:shl_ring_copy"]}
{"id": "C03", "title": "Ring never touches memory outside its buffer", "statement": "In every reachable state the capacity is zero or a power of two, the start offset is below the capacity, the used count is at most the capacity, and every memcpy performed by push, copy, peek and growth stays inside the buffer it addresses.", "quantifier": "all finite call sequences below the documented size limit (total bytes < 2^63)", "why_tests_cant": "Memory safety is a universally quantified statement over histories; a sanitizer run covers only the executed ones.", "anchors": ["src/shared/shl_ring.c:ring_resize", "src/shared/shl_ring.c:ring_grow", "src/shared/shl_ring.c:shl_ring_push", "src/shared/shl_ring.c:shl_ring_copy", "src/shared/shl_macro.h:SHL_ALIGN_POWER2"]}
{"id": "C04", "title": "A successful string-to-integer conversion returns the number that was written", "statement": "Whenever the integer parser reports success, the returned value equals the mathematical value of the longest valid digit prefix (after the optional 0x/0b/0 base prefix) in the requested base; when that value does not fit it reports ERANGE and returns the maximum.", "quantifier": "all input strings of any length and all bases 0..36", "why_tests_cant": "The defect-prone region is the boundary of 2^64, where the outcome depends on digit-by-digit overflow behaviour for every base; sampling misses it.", "anchors": ["src/shared/shl_util.c:shl_atoi_ulln", "src/shared/shl_util.c:shl__skip_base", "src/shared/shl_util.c:shl_ctoi"]}
{"id": "C05", "title": "Integer parsing stops at the first non-digit and never reads past the given length", "statement": "The end pointer returned by the parser is the position just behind the longest prefix made of an optional base prefix and digits valid in the base; it never exceeds the given length, and the narrower variants (unsigned int, unsigned long, size_t) succeed exactly when the value fits the narrower type and then return the same value and position.", "quantifier": "all strings, lengths and bases", "why_tests_cant": "Quantifies over unbounded strings; the clamping logic differs per width.", "anchors": ["src/shared/shl_util.c:shl_atoi_ulln", "src/shared/shl_util.c:shl_atoi_uln", "src/shared/shl_util.c:shl_atoi_un", "src/shared/shl_util.c:shl_atoi_zn"]}
{"id": "C06", "title": "Quoted-string join followed by tokenize gives back the tokens", "statement": "Encoding a list of strings into one quoted command line and tokenizing that line returns the original list, for every list of strings a caller may pass.", "quantifier": "all finite lists of NUL-free strings of any length and content", "why_tests_cant": "Quoting interacts with escapes, quotes and separators in combinations that grow exponentially with length.", "anchors": ["src/shared/shl_util.c:shl_qstr_join", "src/shared/shl_util.c:shl__qstr_encode", "src/shared/shl_util.c:shl_qstr_tokenize_n", "src/shared/shl_util.c:shl_qstr_decode_n"]}
{"id": "C07", "title": "Quoted-string encoding never overflows the output buffer it sizes", "statement": "The buffer allocated by join is large enough for every byte written (including separators, quotes and the terminating NUL); a single encode writes at most 2*length+3 bytes.", "quantifier": "all lists of strings", "why_tests_cant": "Worst-case expansion needs an inductive bound over arbitrary strings.", "anchors": ["src/shared/shl_util.c:shl_qstr_join", "src/shared/shl_util.c:shl__qstr_encode", "src/shared/shl_util.c:shl__qstr_length"]}
{"id": "C08", "title": "Tokenizing arbitrary input is total, bounded and yields NUL-free tokens", "statement": "For any byte string the quoted-string tokenizer terminates, reads only inside the input, writes at most input length + 1 bytes into its scratch buffer, and returns only tokens that contain no NUL byte and whose total length does not exceed the input length.", "quantifier": "all byte strings, including unterminated quotes, trailing backslashes and embedded NULs", "why_tests_cant": "Input comes from wpa_supplicant over a socket; all byte strings must be covered.", "anchors": ["src/shared/shl_util.c:shl_qstr_tokenize_n", "src/shared/shl_util.c:shl_qstr_decode_n"]}
{"id": "C09", "title": "Splitting on separators loses nothing but separators", "statement": "Splitting a string on a separator set returns, in order, exactly the maximal runs of non-separator bytes: no token is empty or contains a separator, and the concatenation of the tokens is the input with all separators removed.", "quantifier": "all strings and separator sets", "why_tests_cant": "Unbounded input domain.", "anchors": ["src/shared/shl_util.c:shl_strsplit_n", "src/shared/shl_util.c:shl_strsplit"]}
{"id": "C10", "title": "Intrusive list operations implement a sequence", "statement": "After any sequence of link (front), link-tail and unlink operations on distinct entries the list walked forward is the sequence obtained by performing the same operations on an ideal list, walked backward it is its reverse, emptiness/first/last agree, and unlinking an entry that is not linked has no effect.", "quantifier": "all finite operation sequences over any number of entries", "why_tests_cant": "Pointer-structure invariants hold over unboundedly many shapes and histories.", "anchors": ["src/shared/shl_dlist.h:shl_dlist_link", "src/shared/shl_dlist.h:shl_dlist_link_tail", "src/shared/shl_dlist.h:shl_dlist_unlink", "src/shared/shl_dlist.h:shl_dlist_for_each"]}
{"id": "C11", "title": "Hash table lookup finds an element exactly when it was inserted and not removed", "statement": "After any sequence of insert and remove calls, looking up a key succeeds iff some element with that key was inserted more often than removed; it returns such an element; this holds regardless of collisions, deleted markers, growth and rehash.", "quantifier": "all operation sequences, all hash functions, all pointer values", "why_tests_cant": "Open addressing with tombstones fails only for specific collision/removal/growth interleavings.", "anchors": ["src/shared/shl_htable.c:shl_htable_insert", "src/shared/shl_htable.c:htable_add", "src/shared/shl_htable.c:htable_delval", "src/shared/shl_htable.c:htable_firstval", "src/shared/shl_htable.c:htable_nextval", "src/shared/shl_htable.c:double_table", "src/shared/shl_htable.c:rehash_table"]}
{"id": "C12", "title": "Hash table iteration visits every element exactly once", "statement": "Iterating a hash table that is not modified visits the stored multiset of elements, each as often as it is stored, and nothing else; the element counter equals their number; a probe always terminates because a free slot always remains.", "quantifier": "all reachable tables", "why_tests_cant": "Depends on all reachable layouts.", "anchors": ["src/shared/shl_htable.c:shl_htable_this_or_next", "src/shared/shl_htable.c:shl_htable_get_entry", "src/shared/shl_htable.c:htable_visit", "src/shared/shl_htable.c:htable_add"]}
{"id": "C13", "title": "Rate limiter admits at most burst events per interval", "statement": "Within any window opened by the limiter (from its begin time up to begin+interval) at most `burst` calls are admitted, the first `burst` calls in a window are all admitted, and a call later than interval after the window began is always admitted.", "quantifier": "all call-time sequences (monotone clock), all intervals and bursts", "why_tests_cant": "Quantifies over time schedules.", "anchors": ["src/shared/shl_util.c:shl_ratelimit_test", "src/shared/shl_util.h:SHL_RATELIMIT_INIT"]}
{"id": "C14", "title": "Growable buffers are always large enough and keep their content", "statement": "After a successful greedy reallocation the capacity is at least the requested need, old content is preserved and (zeroing variant) all newly gained bytes are zero; on failure nothing changes; the capacity never shrinks.", "quantifier": "all sequences of growth requests", "why_tests_cant": "Capacity arithmetic (power-of-two rounding, overflow) must hold for all sizes.", "anchors": ["src/shared/shl_util.c:shl_greedy_realloc", "src/shared/shl_util.c:shl_greedy_realloc0"]}
{"id": "C15", "title": "Path prefix test respects component boundaries", "statement": "path_startswith(path, prefix) is non-NULL exactly when both are absolute or both relative and the non-empty components of prefix are a prefix of those of path; the returned rest begins at the first remaining component.", "quantifier": "all strings, including repeated and trailing slashes", "why_tests_cant": "Unbounded strings.", "anchors": ["src/shared/shl_util.c:shl__path_startswith"]}
{"id": "C16", "title": "RTSP parsing does not depend on how the stream is chunked", "statement": "Feeding the same byte stream to the RTSP receiver in any chunking yields the same sequence of parsed messages, the same final outcome (error or not) and the same leftover state.", "quantifier": "all byte streams and all ways to cut them into reads", "why_tests_cant": "TCP segmentation is chosen by the network; the number of chunkings is exponential.", "anchors": ["src/shared/rtsp.c:rtsp_parse_data", "src/shared/rtsp.c:parser_append_header", "src/shared/rtsp.c:parser_submit", "src/shared/rtsp.c:rtsp_read"]}
{"id": "C17", "title": "No byte stream drives the RTSP receiver into an inconsistent state", "statement": "For every byte stream the receiver never reports an internal inconsistency (EFAULT) and never consumes more bytes from its buffer than are available.", "quantifier": "all byte streams", "why_tests_cant": "Remote peer controls the stream.", "anchors": ["src/shared/rtsp.c:rtsp_parse_data", "src/shared/rtsp.c:parser_feed_char_header", "src/shared/rtsp.c:parser_feed_char_body"]}
{"id": "C18", "title": "What the RTSP sender serialises the RTSP receiver reads back", "statement": "A sealed request or reply built through the message API, sent over a stream and received, yields a message with the same type, method/URI or code/phrase, the same header lines and the same body, and consumes exactly the bytes sent, so back-to-back messages are framed correctly.", "quantifier": "all messages (any headers, any body bytes), all sequences of messages", "why_tests_cant": "Composition of serialiser and state-machine parser over all contents.", "anchors": ["src/shared/rtsp.c:rtsp_message_serialize_common", "src/shared/rtsp.c:rtsp_message_seal", "src/shared/rtsp.c:rtsp_parse_data", "src/shared/rtsp.c:rtsp_message_from_head"]}
{"id": "C19", "title": "Interleaved data frames survive the wire", "statement": "A data message with any channel and payload is received as the same channel and payload and leaves the stream positioned exactly behind the frame.", "quantifier": "all channels and payloads of any size", "why_tests_cant": "The size boundary cases (0 and > 65535) are the ones tests skip.", "anchors": ["src/shared/rtsp.c:rtsp_message_serialize_data", "src/shared/rtsp.c:parser_feed_char_data_head", "src/shared/rtsp.c:parser_feed_char_data_body", "src/shared/rtsp.c:rtsp_message_new_data"]}
{"id": "C20", "title": "Line sanitising prevents header injection", "statement": "Whatever string a caller appends as a header line, it contributes exactly one line to the serialised message: sanitised lines contain no CR, LF or NUL and start and end without white space, and the receiver's folding of it gives the same text; sanitising is idempotent.", "quantifier": "all byte strings", "why_tests_cant": "Security property over all inputs.", "anchors": ["src/shared/rtsp.c:sanitize_line", "src/shared/rtsp.c:rtsp_message_append_line"]}
{"id": "C21", "title": "RTSP header lookup survives any number of headers", "statement": "The parsed Content-Length/Content-Type/CSeq accessors of a message always refer to live header storage, whatever number of headers is appended or received.", "quantifier": "all header counts and orders", "why_tests_cant": "Use-after-realloc appears only beyond the initial capacity.", "anchors": ["src/shared/rtsp.c:rtsp_message_append_header", "src/shared/rtsp.c:rtsp_message_append_header_line", "src/shared/rtsp.c:rtsp_header"]}
{"id": "C22", "title": "Every asynchronous RTSP call completes at most once, with its own reply", "statement": "For each asynchronous call the completion callback runs at most once: with the reply that carries the call's cookie, or with a timeout/hang-up error; after it ran or the call was cancelled the callback is never invoked again; replies with unknown cookies invoke no callback.", "quantifier": "all interleavings of calls, cancellations, replies, write progress, timeouts and hang-ups", "why_tests_cant": "Concurrency/history property.", "anchors": ["src/shared/rtsp.c:rtsp_call_async", "src/shared/rtsp.c:rtsp_call_async_cancel", "src/shared/rtsp.c:rtsp_incoming_message", "src/shared/rtsp.c:rtsp_drop_message", "src/shared/rtsp.c:rtsp_timer_fn", "src/shared/rtsp.c:rtsp_hup"]}
{"id": "C23", "title": "RTSP cookies of outstanding calls are distinct and marked local", "statement": "Every sealed outgoing request gets a non-zero cookie; local and remote cookies are in disjoint spaces so that a remote request can never be taken for a reply to a local call, and two outstanding calls never share a cookie as long as fewer than 2^63 calls are made.", "quantifier": "all call histories", "why_tests_cant": "History property.", "anchors": ["src/shared/rtsp.c:rtsp_message_seal", "src/shared/rtsp.c:rtsp_message_set_cookie", "src/shared/rtsp.c:RTSP_FLAG_REMOTE_COOKIE", "src/shared/rtsp.c:rtsp_call_reply"]}
{"id": "C24", "title": "RTSP output is the in-order concatenation of the sent messages", "statement": "Whatever byte counts the socket accepts per write, the bytes put on the wire are a prefix of the concatenation of the queued messages in send order, never interleaved, duplicated or reordered, except that a message cancelled, timed out or answered before its transmission was begun is omitted entirely and one already begun is always completed.", "quantifier": "all message sequences, partial-write schedules and cancellations", "why_tests_cant": "Partial write schedules are unbounded.", "anchors": ["src/shared/rtsp.c:rtsp_write", "src/shared/rtsp.c:rtsp_write_message", "src/shared/rtsp.c:rtsp_link_outgoing", "src/shared/rtsp.c:rtsp_drop_message"]}
{"id": "C25", "title": "RTSP message construction obeys the nesting discipline and seals for good", "statement": "Append/open/close operations succeed only in their legal nesting (no header inside a header, no body inside a body or header, nothing closed that is not open), a failed operation leaves the message unchanged (an append of several items keeps exactly the items before the refused one), and once sealed every mutating operation fails (with EBUSY, or EINVAL where it is invalid on any message of that type) and the raw bytes never change.", "quantifier": "all operation sequences on a message", "why_tests_cant": "API protocol over all call sequences.", "anchors": ["src/shared/rtsp.c:rtsp_message_open_header", "src/shared/rtsp.c:rtsp_message_close_header", "src/shared/rtsp.c:rtsp_message_append_basic", "src/shared/rtsp.c:rtsp_message_seal"]}
{"id": "C26", "title": "wpa_supplicant replies are matched to requests in order", "statement": "Over one control socket the k-th reply received is delivered to the callback of the k-th request that was sent (and to no other), each callback runs at most once, cancelled requests' replies are swallowed without shifting the matching, and at most one request is in flight.", "quantifier": "all interleavings of calls, cancellations, socket readiness, replies, events, timeouts and hang-up", "why_tests_cant": "The protocol has no ids; correctness is purely a queue-order invariant over all schedules.", "anchors": ["src/shared/wpas.c:wpas_call_async", "src/shared/wpas.c:wpas_call_async_cancel", "src/shared/wpas.c:wpas__read", "src/shared/wpas.c:wpas__write", "src/shared/wpas.c:wpas_timer_fn", "src/shared/wpas.c:wpas__hup"]}
{"id": "C27", "title": "wpa_supplicant request text round-trips", "statement": "A request built from a command name and string arguments is put on the wire as text that, tokenized by the message parser, has the same name and arguments.", "quantifier": "all names and arguments a caller may pass", "why_tests_cant": "Unbounded strings through the quoting layer.", "anchors": ["src/shared/wpas.c:wpas_message_append_basic", "src/shared/wpas.c:wpas_message_seal", "src/shared/wpas.c:wpas__parse_message"]}
{"id": "C28", "title": "wpa_supplicant events are classified correctly", "statement": "Any datagram of the form [IFNAME=x ]<N>NAME args is delivered as an event with that interface, level N, name and arguments; a datagram whose body does not start with '<' is a reply whose arguments are its lines; a body that starts with '<' without being an event is never taken for a reply.", "quantifier": "all datagrams", "why_tests_cant": "All inputs from the daemon.", "anchors": ["src/shared/wpas.c:wpas__parse_message", "src/shared/wpas.c:wpas__read"]}
{"id": "C29", "title": "wpas dictionary lookup returns the first matching entry", "statement": "Looking up a key among key=value arguments returns the value of the first entry whose text before the first '=' equals the key, independent of the read cursor, and ENOENT otherwise.", "quantifier": "all argument lists and keys", "why_tests_cant": "Unbounded lists/strings.", "anchors": ["src/shared/wpas.c:wpas_message_dict_read", "src/shared/wpas.c:wpas_message_argv_read"]}
{"id": "C30", "title": "DHCP option lookup is memory safe and terminates on every packet", "statement": "For every received packet of every length accepted by the receive path, looking up any option code terminates and reads only inside the packet.", "quantifier": "all packet contents and lengths, all option codes", "why_tests_cant": "Packets come from the network unauthenticated; every byte string must be covered.", "anchors": ["src/dhcp/common.c:dhcp_get_option"]}
{"id": "C31", "title": "DHCP option lookup returns the first occurrence of a well-formed option", "statement": "In a packet whose option area is a well-formed list of type-length-value items terminated by END, lookup of a code returns the value of its first occurrence and NULL iff the code is absent.", "quantifier": "all well-formed option lists and codes", "why_tests_cant": "Unbounded option lists.", "anchors": ["src/dhcp/common.c:dhcp_get_option", "src/dhcp/common.c:dhcp_end_option"]}
{"id": "C32", "title": "Building DHCP options never overflows the option area and is readable back", "statement": "Any sequence of option additions to a freshly initialised packet keeps the option list terminated by END inside the option area; each accepted option is readable with its value; an option that would not fit is dropped without changing the packet.", "quantifier": "all sequences of option additions", "why_tests_cant": "Bound must hold at every fill level.", "anchors": ["src/dhcp/common.c:dhcp_add_binary_option", "src/dhcp/common.c:dhcp_add_option_uint8", "src/dhcp/common.c:dhcp_add_option_uint16", "src/dhcp/common.c:dhcp_add_option_uint32", "src/dhcp/common.c:dhcp_init_header"]}
{"id": "C33", "title": "The Internet checksum verifies", "statement": "For every even- or odd-length buffer, storing the computed checksum in a zeroed 16-bit field makes the checksum over the whole buffer zero, and a buffer accepted by the receive check has one's-complement sum zero; changing a single 16-bit word is always detected (up to the two zero representations).", "quantifier": "all buffers", "why_tests_cant": "Arithmetic identity over all buffers.", "anchors": ["src/dhcp/common.c:dhcp_checksum", "src/dhcp/client.c:dhcp_recv_l2_packet", "src/dhcp/client.c:sanity_check"]}
{"id": "C34", "title": "Receiving a raw DHCP frame never copies outside the receive buffer", "statement": "For any frame delivered on the packet socket the payload copied to the caller stays within the received bytes and the caller's packet buffer, and the reported length is the copied length.", "quantifier": "all frames", "why_tests_cant": "Untrusted input with several inconsistent length fields.", "anchors": ["src/dhcp/client.c:dhcp_recv_l2_packet", "src/dhcp/client.c:sanity_check"]}
{"id": "C35", "title": "Lease timers are ordered", "statement": "For every lease time option (or none) a bound client schedules renewal, rebinding and expiry with 0 < T1 < T2 < expiry, and retransmission intervals while renewing/rebinding are strictly decreasing so that the process ends by rebinding resp. expiry.", "quantifier": "all 32-bit lease option values", "why_tests_cant": "Integer/float rounding at boundary values.", "anchors": ["src/dhcp/client.c:get_lease", "src/dhcp/client.c:start_bound", "src/dhcp/client.c:start_renew", "src/dhcp/client.c:start_rebound", "src/dhcp/client.c:continue_renew"]}
{"id": "C36", "title": "A client only reports a lease acknowledged for its own transaction", "statement": "The lease-available callback fires only on receipt of a DHCPACK whose transaction id and hardware address match the client's own, while a request is outstanding; the address reported is the one the server offered for it.", "quantifier": "all packet sequences and timer interleavings", "why_tests_cant": "Protocol state machine over adversarial packet sequences.", "anchors": ["src/dhcp/client.c:listener_event", "src/dhcp/client.c:check_package_owner"]}
{"id": "C37", "title": "A renewing client accepts the server's ACK", "statement": "When the client is renewing over unicast and the server answers with a matching ACK, the client returns to the bound state with the new lease.", "quantifier": "all matching ACK packets", "why_tests_cant": "Requires relating the receive path's length bookkeeping with option lookup for all packets.", "anchors": ["src/dhcp/client.c:listener_event", "src/dhcp/client.c:dhcp_recv_l3_packet", "src/dhcp/common.c:dhcp_get_option"]}
{"id": "C38", "title": "Malformed server messages do not crash the DHCP client", "statement": "No packet with matching transaction id and hardware address, whatever options it carries, makes the client dereference a missing option.", "quantifier": "all packets, in all client states", "why_tests_cant": "Missing-option combinations per state.", "anchors": ["src/dhcp/client.c:listener_event"]}
{"id": "C39", "title": "DHCP server never gives one address to two clients at the same time", "statement": "At any time the addresses held by distinct hardware addresses under unexpired leases are distinct, every leased address lies in the configured range, and each hardware address has at most one lease.", "quantifier": "all request/response histories and clock values", "why_tests_cant": "Invariant over all protocol histories.", "anchors": ["src/dhcp/server.c:add_lease", "src/dhcp/server.c:get_lease", "src/dhcp/server.c:find_free_or_expired_nip", "src/dhcp/server.c:listener_event"]}
{"id": "C40", "title": "An offered address stays reserved for the client it was offered to", "statement": "After an OFFER the offered address is not offered to another client until the offer time passed.", "quantifier": "all histories", "why_tests_cant": "Time and history quantification.", "anchors": ["src/dhcp/server.c:add_lease", "src/dhcp/server.c:is_expired_lease", "src/dhcp/server.c:find_free_or_expired_nip"]}
{"id": "C41", "title": "Server lease indexes stay consistent", "statement": "The address index and the expiry-ordered list of the DHCP server always hold the same leases; the list is ordered by expiry (latest first); removing or re-adding a lease never leaves a stale entry.", "quantifier": "all handler sequences", "why_tests_cant": "Invariant over histories; staleness means use-after-free.", "anchors": ["src/dhcp/server.c:add_lease", "src/dhcp/server.c:remove_lease", "src/dhcp/server.c:get_lease", "src/dhcp/server.c:compare_expire", "src/dhcp/server.c:find_lease_by_nip"]}
{"id": "C42", "title": "Link-local addresses are drawn from the usable range", "statement": "Every generated IPv4 link-local candidate lies in 169.254.1.0 - 169.254.254.255, and random probe delays are below the requested bound.", "quantifier": "all random numbers and seeds", "why_tests_cant": "Range property for all random outcomes.", "anchors": ["src/dhcp/ipv4ll.c:ipv4ll_random_ip", "src/dhcp/ipv4ll.c:ipv4ll_random_delay_ms"]}
{"id": "C43", "title": "DHCPv6 option lookup stays inside the packet", "statement": "For every DHCPv6 packet of every length the option lookup (and sub-option lookup) terminates and reads only inside the packet; the reported option length is the one encoded.", "quantifier": "all packets and lengths", "why_tests_cant": "Untrusted input.", "anchors": ["src/dhcp/common.c:dhcpv6_get_option", "src/dhcp/common.c:dhcpv6_get_sub_option"]}
{"id": "C44", "title": "The DHCP helper's line protocol is parsed unambiguously", "statement": "Every line the DHCP helper writes (local address, subnet, DNS, gateway, remote lease) is parsed by the Wi-Fi daemon into the same value, and unknown lines have no effect.", "quantifier": "all addresses and MACs", "why_tests_cant": "Two programs must agree for all values.", "anchors": ["src/dhcp/dhcp.c:client_lease_fn", "src/dhcp/dhcp.c:server_event_fn", "src/wifi/wifid-supplicant.c:supplicant_group_comm_fn"]}
{"id": "C45", "title": "Local groups never share an IPv4 subnet", "statement": "At any time two live groups for which this device is the group owner use different 192.168.x subnets with x in 50..255; creation fails rather than reusing one.", "quantifier": "all histories of group creation and removal", "why_tests_cant": "History property.", "anchors": ["src/wifi/wifid-supplicant.c:supplicant_group_new", "src/wifi/wifid-supplicant.c:supplicant_group_free"]}
{"id": "C46", "title": "Group reference counting is exact", "statement": "A P2P group object lives exactly as long as it is linked or some peer uses it: it is freed exactly once, never while a peer still points at it, and not leaked once its last peer left.", "quantifier": "all histories of group start, peer connect/disconnect, peer loss and group removal events", "why_tests_cant": "Lifetime over all event interleavings.", "anchors": ["src/wifi/wifid-supplicant.c:supplicant_peer_drop_group", "src/wifi/wifid-supplicant.c:supplicant_peer_set_group", "src/wifi/wifid-supplicant.c:supplicant_group_free"]}
{"id": "C47", "title": "At most one outgoing connection attempt is pending and it names a live peer", "statement": "While one peer's connection attempt is pending, a connect request for another peer fails with EALREADY; the pending reference is cleared when the peer disappears.", "quantifier": "all histories", "why_tests_cant": "Dangling pointer property over histories.", "anchors": ["src/wifi/wifid-supplicant.c:supplicant_peer_connect", "src/wifi/wifid-supplicant.c:supplicant_peer_free", "src/wifi/wifid-supplicant.c:supplicant_p2p_start_scan"]}
{"id": "C48", "title": "Supplicant becomes ready exactly when all setup requests succeeded", "statement": "After attaching, the supplicant is announced as started once all outstanding setup requests were answered successfully, and every later restart attempt can again reach that state.", "quantifier": "all orders of replies, failures and restarts", "why_tests_cant": "Interleavings of failure and replies.", "anchors": ["src/wifi/wifid-supplicant.c:supplicant_try_ready", "src/wifi/wifid-supplicant.c:supplicant_failed", "src/wifi/wifid-supplicant.c:supplicant_started", "src/wifi/wifid-supplicant.c:supplicant_stopped"]}
{"id": "C49", "title": "Peer appearance and disappearance signals strictly alternate", "statement": "For each peer object the D-Bus added and removed signals alternate starting with added, and connected-changed notifications are emitted only when the connected state really changed.", "quantifier": "all event histories", "why_tests_cant": "History property observed by clients.", "anchors": ["src/wifi/wifid-peer.c:peer_supplicant_started", "src/wifi/wifid-peer.c:peer_supplicant_stopped", "src/wifi/wifid-peer.c:peer_supplicant_connected_changed"]}
{"id": "C50", "title": "Object enumeration never overflows and lists everything", "statement": "The D-Bus object enumeration lists the manager's path plus every public link and peer exactly once and never writes past its array, because the counters equal the number of objects.", "quantifier": "all histories of link and peer creation and removal", "why_tests_cant": "Counter drift only shows after particular histories.", "anchors": ["src/wifi/wifid-dbus.c:manager_dbus_enumerate", "src/wifi/wifid-link.c:link_new", "src/wifi/wifid-link.c:link_free", "src/wifi/wifid-peer.c:peer_new", "src/wifi/wifid-peer.c:peer_free"]}
{"id": "C51", "title": "MAC addresses are canonicalised", "statement": "Reformatting any string yields a 17-character lower-case colon-separated MAC (never overflowing the 18-byte buffer); reformatting is idempotent, and textual variants (case, missing leading zeros) of the same address map to the same text.", "quantifier": "all strings", "why_tests_cant": "All strings.", "anchors": ["src/shared/util.h:reformat_mac"]}
{"id": "C52", "title": "A crashing supplicant is not restarted in a tight loop", "statement": "However often wpa_supplicant dies, the delays before the next start obey the back-off policy: at most a fixed number of fast restarts per interval, otherwise the long delay; the number of starts in any period is bounded.", "quantifier": "all crash schedules", "why_tests_cant": "Schedule property.", "anchors": ["src/wifi/wifid-supplicant.c:supplicant_failed", "src/wifi/wifid-supplicant.c:supplicant_timer_fn", "src/wifi/wifid-supplicant.c:supplicant_spawn"]}
{"id": "C53", "title": "Resolution choice is one both sides support", "statement": "For every mask sent by the source, the chosen resolution is one whose bit is set in the mask and known in the table, namely the first such, and failure is reported iff there is none.", "quantifier": "all 32-bit masks and all three tables", "why_tests_cant": "2^32 masks.", "anchors": ["src/ctl/wfd.c:vfd_get_cea_resolution", "src/ctl/wfd.c:vfd_get_vesa_resolution", "src/ctl/wfd.c:vfd_get_hh_resolution", "src/ctl/ctl-sink.c:sink_set_format"]}
{"id": "C54", "title": "The sink answers every RTSP request and negotiates in order", "statement": "Every request of the source gets exactly one reply, SETUP is sent only after a SETUP trigger and PLAY only after a successful SETUP reply, and the session id sent with PLAY is the server's id without parameters.", "quantifier": "all message sequences", "why_tests_cant": "Protocol over adversarial sequences.", "anchors": ["src/ctl/ctl-sink.c:sink_req_fn", "src/ctl/ctl-sink.c:sink_handle_set_parameter", "src/ctl/ctl-sink.c:sink_setup_fn"]}
{"id": "C55", "title": "CLI dispatch runs at most one handler and only with a legal argument count", "statement": "For every command line at most one command handler runs, the first whose name matches, and only when the number of arguments satisfies its declared constraint; unknown commands are reported as such.", "quantifier": "all command tables, handlers and argument vectors", "why_tests_cant": "Tables differ between the programs and may hold several commands of one name; the claim is about every table and every handler.", "anchors": ["src/ctl/ctl-cli.c:cli_do", "src/ctl/ctl-cli.c:cli_help", "src/ctl/ctl-cli.c:cli_handler_fn"]}
{"id": "C56", "title": "The controller's mirror of links and peers follows the bus", "statement": "After any sequence of object-added, object-removed and property messages the mirrored links and peers have unique labels, every peer belongs to the link named in its label, and no freed object is referenced.", "quantifier": "all message sequences", "why_tests_cant": "Which object a message means depends on all messages before; a failed parse frees an object half way.", "anchors": ["src/ctl/ctl-wifi.c:ctl_wifi_parse_object", "src/ctl/ctl-wifi.c:ctl_wifi_object_fn", "src/ctl/ctl-wifi.c:ctl_link_free", "src/ctl/ctl-wifi.c:ctl_peer_free"]}
{"id": "C57", "title": "The sink controller never keeps a reference to a vanished peer", "statement": "The running link, running peer and pending peer kept by the sink controller always refer to objects that still exist.", "quantifier": "all event sequences", "why_tests_cant": "Dangling pointers arise only for particular event orders.", "anchors": ["src/ctl/sinkctl.c:ctl_fn_peer_new", "src/ctl/sinkctl.c:ctl_fn_peer_free", "src/ctl/sinkctl.c:ctl_fn_peer_connected", "src/ctl/sinkctl.c:ctl_fn_link_free"]}
{"id": "C58", "title": "UIBC touch packets are built inside their buffers", "statement": "For every textual input event the touch packet builder reads only existing tokens, writes only inside its allocation, and produces a packet whose length field equals its length.", "quantifier": "all input strings", "why_tests_cant": "Input strings come from another process.", "anchors": ["src/uibc/miracle-uibcctl.c:getUIBCGenericTouchPacket"]}
{"id": "C59", "title": "UIBC key packets encode the key codes", "statement": "For every well-formed key event the produced packet carries event type and both 16-bit key codes big-endian, within the allocated buffer; malformed input yields an empty packet.", "quantifier": "all key codes / strings", "why_tests_cant": "All inputs.", "anchors": ["src/uibc/miracle-uibcctl.c:getUIBCGenericKeyPacket"]}
{"id": "C60", "title": "UIBC string splitting stays inside its array", "statement": "Splitting any string at a delimiter writes only inside the array it allocated and returns the tokens in order.", "quantifier": "all strings", "why_tests_cant": "All inputs incl. trailing delimiters.", "anchors": ["src/uibc/miracle-uibcctl.c:str_split"]}
{"id": "C61", "title": "Log level arguments map to the documented severities", "statement": "Every documented severity name (any case) and every decimal number maps to its severity; nothing else raises verbosity.", "quantifier": "all strings", "why_tests_cant": "All strings.", "anchors": ["src/shared/shl_log.c:log_parse_arg"]}
{"id": "C62", "title": "Log timestamps are normalised", "statement": "The relative timestamp printed with each log line has 0 <= microseconds < 1000000 and equals the difference to the start time.", "quantifier": "all pairs of time values with normalised microseconds", "why_tests_cant": "Borrow arithmetic over all pairs.", "anchors": ["src/shared/shl_log.c:log__time"]}
{"id": "C63", "title": "Bytes written big-endian/little-endian read back", "statement": "Storing a 16- or 32-bit value at any unaligned position and loading it returns the value and touches only the addressed bytes.", "quantifier": "all values and buffers", "why_tests_cant": "All values.", "anchors": ["src/dhcp/unaligned.h:put_be16", "src/dhcp/unaligned.h:get_be16", "src/dhcp/unaligned.h:put_be32", "src/dhcp/unaligned.h:get_be32"]}
{"id": "C64", "title": "Checked multiplication and string concatenation never wrap", "statement": "The overflow-checked multiplication helpers report ERANGE exactly when the product does not fit and otherwise store the product; concatenation helpers allocate exactly the sum of lengths plus one and return the concatenation.", "quantifier": "all operands/strings", "why_tests_cant": "Boundary over 2^128 operand pairs.", "anchors": ["src/shared/shl_macro.h:shl_mult_ull", "src/shared/shl_util.c:shl_strcat", "src/shared/shl_util.c:shl_strjoin"]}
{"id": "C65", "title": "Allocation failure while splitting or tokenizing is reported, not crashed on", "statement": "If memory runs out at any point while a string is split on separators or tokenized, the call returns -ENOMEM and hands out no result; it never dereferences the failed allocation.", "quantifier": "all inputs and all patterns of allocation failures", "why_tests_cant": "The failure can hit any one of unboundedly many allocations; unit tests do not inject malloc failures.", "anchors": ["src/shared/shl_util.c:shl__split_push", "src/shared/shl_util.c:shl_strsplit_n", "src/shared/shl_util.c:shl__qstr_push", "src/shared/shl_util.c:shl_qstr_tokenize_n"]}
{"id": "C66", "title": "Raw DHCP frames sent by the library are accepted by its own receiver", "statement": "Every raw frame built for the DHCP client port carries correct IP and UDP checksums and is accepted by the raw receive path, which delivers exactly the message that was sent (with the broadcast flag set), also between hosts of different byte order.", "quantifier": "all DHCP messages, addresses, source ports, both byte orders on both sides", "why_tests_cant": "The checksums depend on all 576 bytes; the corner cases of one's-complement zero are hit by one message in 65536.", "anchors": ["src/dhcp/common.c:dhcp_send_raw_packet", "src/dhcp/common.c:dhcp_checksum", "src/dhcp/client.c:dhcp_recv_l2_packet", "src/dhcp/client.c:sanity_check"]}
{"id": "C67", "title": "wpas events and replies are transmitted as built", "statement": "An event or reply that a control server builds through the message API arrives at the client with the same level, name and arguments.", "quantifier": "all events and replies built through the API", "why_tests_cant": "Unbounded strings and argument lists; the length sent depends on all of them.", "anchors": ["src/shared/wpas.c:wpas_message_seal", "src/shared/wpas.c:wpas__send", "src/shared/wpas.c:wpas__parse_message"]}
{"id": "C68", "title": "wpas matches see every message in order", "statement": "A message that is not a reply, and the hang-up, is given to the registered matches in the order they were added, to each at most once, until one of them takes it; removing a match takes out the one added last of those equal and it is not called any more, also when a callback adds or removes matches.", "quantifier": "all lists of matches, all runs of additions, removals and dispatches, all behaviours of callbacks", "why_tests_cant": "The list is changed by the callbacks that are called while it is walked.", "anchors": ["src/shared/wpas.c:wpas__call", "src/shared/wpas.c:wpas_add_match", "src/shared/wpas.c:wpas_remove_match"]}
{"id": "C69", "title": "wpas message arguments are read in order and can be rewound", "statement": "Reading or skipping consumes the next argument of a received message exactly if it has the form asked for; rewinding starts over; nothing else of the message changes; every received message can be answered.", "quantifier": "all received messages and all sequences of reads, skips and rewinds", "why_tests_cant": "Unbounded sequences of operations on messages whose text is chosen by another process.", "anchors": ["src/shared/wpas.c:wpas_message_read", "src/shared/wpas.c:wpas_message_skip_basic", "src/shared/wpas.c:wpas_message_rewind", "src/shared/wpas.c:wpas_message_new_reply_for"]}
{"id": "C70", "title": "DHCP server honours renewals, releases and declines", "statement": "A client that has a lease and sends a REQUEST carrying its address in ciaddr (renewal, RFC 2131 4.3.2) is acknowledged that address with a fresh lease time; a RELEASE carrying it ends the lease; a DECLINE of it removes the lease.  None of these touches the lease of another client.", "quantifier": "all reachable server states, leases, clock values and byte orders of the machine", "why_tests_cant": "Quantifies over histories and over the byte order of the host; a test runs on one machine.", "anchors": ["src/dhcp/server.c:listener_event", "src/dhcp/server.c:lease_set_expire", "src/dhcp/server.c:send_ACK", "src/dhcp/server.c:remove_lease"]}
{"id": "C71", "title": "DHCP server serves clients", "statement": "A DISCOVER of a client is answered with an OFFER of an address in the range whenever the client has a lease or a usable address is free, and the REQUEST for the address that follows is acknowledged with the configured lease time and reported to the callback.  An OFFER never names an address on which another client has a lease that has not expired; a NAK is sent only to a client that asks for an address that is not its own or cannot be leased.", "quantifier": "all reachable server states, packets, clock values", "why_tests_cant": "Quantifies over all protocol histories.", "anchors": ["src/dhcp/server.c:send_offer", "src/dhcp/server.c:send_ACK", "src/dhcp/server.c:send_NAK", "src/dhcp/server.c:find_free_or_expired_nip", "src/dhcp/server.c:check_requested_nip"]}
{"id": "C72", "title": "DHCP client reports the option values of the ACK", "statement": "After an ACK the value of every option the user asked for is exactly what the ACK carries (addresses as dotted texts in order, text up to the first NUL), or absent if the ACK lacks it; converting an option of whatever length never leaves the memory involved.", "quantifier": "all packets, option lengths, option types, contents of fresh memory", "why_tests_cant": "Lengths and contents are chosen by the server; uninitialised memory differs from run to run.", "anchors": ["src/dhcp/client.c:get_request", "src/dhcp/client.c:malloc_option_value_string", "src/dhcp/client.c:get_option_value_list"]}
{"id": "C73", "title": "A stopped DHCP client is silent", "statement": "After g_dhcp_client_stop no timer and no socket watch of the client is left, so nothing is sent and no callback runs until it is started again; every timer of a running client is known to it.", "quantifier": "all runs of starts, stops, packets, socket errors and timer expiries", "why_tests_cant": "A leaked timer shows only in particular orders of events.", "anchors": ["src/dhcp/client.c:g_dhcp_client_stop", "src/dhcp/client.c:remove_timeouts", "src/dhcp/client.c:switch_listening_mode", "src/dhcp/client.c:restart_dhcp"]}
{"id": "C74", "title": "A DHCP client without answers gives up and never hangs", "statement": "A running client always has a timer armed unless it has reported that there is no lease; without any answer it sends at most six DISCOVERs and three REQUESTs in a phase before it reports that there is no lease.", "quantifier": "all runs with any packets before, all numbers of refusals received", "why_tests_cant": "Bounded retries have to hold in every state reachable by any history.", "anchors": ["src/dhcp/client.c:g_dhcp_client_start", "src/dhcp/client.c:discover_timeout", "src/dhcp/client.c:request_timeout", "src/dhcp/client.c:reboot_timeout", "src/dhcp/client.c:restart_dhcp_timeout"]}
{"id": "C75", "title": "The user of a DHCP client is told when a lease ends", "statement": "From a lease-available callback until the lease-lost or no-lease callback (or the next lease, or a stop) the client has the lease: it is bound, renewing or rebinding, and the expiry of the lease is scheduled.", "quantifier": "all runs of packets, timer expiries and socket errors", "why_tests_cant": "Whether a lease ends silently depends on the order of refusals, expiries and retries.", "anchors": ["src/dhcp/client.c:listener_event", "src/dhcp/client.c:start_expire", "src/dhcp/client.c:restart_dhcp_timeout", "src/dhcp/client.c:start_bound"]}
{"id": "C76", "title": "A DHCP client recovers from a socket error", "statement": "A client whose listening socket reported an error listens again at the latest when it starts the next attempt to get a lease.", "quantifier": "all runs", "why_tests_cant": "Errors of packet sockets are rare and their effect shows only much later.", "anchors": ["src/dhcp/client.c:listener_event", "src/dhcp/client.c:switch_listening_mode", "src/dhcp/client.c:g_dhcp_client_start"]}
{"id": "C77", "title": "A peer shown as connected can be reached", "statement": "Whenever a peer object says Connected, the peer is in a live group, the local address of the interface and the address of the peer are known; when the peer leaves the group or the group ends it says not connected.", "quantifier": "all histories of wpa_supplicant events, helper lines, helper deaths and D-Bus calls", "why_tests_cant": "Depends on the order of events of three processes.", "anchors": ["src/wifi/wifid-supplicant.c:supplicant_group_comm_fn", "src/wifi/wifid-supplicant.c:supplicant_peer_drop_group", "src/wifi/wifid-peer.c:peer_supplicant_connected_changed"]}
{"id": "C78", "title": "A finished connection attempt does not block others", "statement": "Once a connection attempt succeeded or failed, a connect request for another peer is not refused as already in progress.", "quantifier": "all histories", "why_tests_cant": "The reference is cleared on some of the ways an attempt ends; a test covers one of them.", "anchors": ["src/wifi/wifid-supplicant.c:supplicant_peer_connect", "src/wifi/wifid-supplicant.c:supplicant_event_p2p_group_started", "src/wifi/wifid-supplicant.c:supplicant_event_p2p_go_neg_failure"]}
{"id": "C79", "title": "Capabilities are those of the supplicant that runs", "statement": "Whenever a supplicant is announced as running, P2P and wifi-display are offered exactly if the running wpa_supplicant process said that it supports them.", "quantifier": "all restarts with processes of different capabilities", "why_tests_cant": "Needs the replacement of wpa_supplicant by another build while the daemon runs.", "anchors": ["src/wifi/wifid-supplicant.c:supplicant_status_fn", "src/wifi/wifid-supplicant.c:supplicant_try_ready", "src/wifi/wifid-supplicant.c:supplicant_set_wifi_display_fn"]}
{"id": "C80", "title": "Every UIBC event kind can be sent", "statement": "For every kind of event the library knows (touch, key, zoom, scroll, rotate) there is an input for which the packet is built without leaving the memory involved.", "quantifier": "all inputs, per kind", "why_tests_cant": "A universally failing builder needs all inputs to be ruled out.", "anchors": ["src/uibc/miracle-uibcctl.c:getUIBCGenericZoomPacket", "src/uibc/miracle-uibcctl.c:getUIBCGenericScalePacket", "src/uibc/miracle-uibcctl.c:getUIBCGenericRotatePacket"]}
{"id": "C81", "title": "Every line of UIBC input is one event", "statement": "Each line on standard input is handled as one event, in order, and nothing else is.", "quantifier": "all inputs, lines of any length", "why_tests_cant": "Lines have unbounded length.", "anchors": ["src/uibc/miracle-uibcctl.c:main"]}
{"id": "C82", "title": "Clients that follow the bus know exactly the objects", "statement": "A client that follows InterfacesAdded and InterfacesRemoved from the start knows at every time exactly the public links and peers; objects are announced only while they are unknown, and properties change only of known objects.", "quantifier": "all histories of devices, clients, supplicants and peers", "why_tests_cant": "Holds or fails by the order of many events; needs an invariant over all histories.", "anchors": ["src/wifi/wifid-dbus.c:link_dbus_added", "src/wifi/wifid-dbus.c:link_dbus_removed", "src/wifi/wifid-dbus.c:peer_dbus_added", "src/wifi/wifid-dbus.c:peer_dbus_removed", "src/wifi/wifid-link.c:link_free"]}
{"id": "C83", "title": "Object paths are unique and lead back to the object", "statement": "Different objects have different paths, the path of every public link and peer leads back to exactly this object, and a path never leads to an object that is not public.", "quantifier": "all histories, all paths", "why_tests_cant": "Escaping and parsing have to be inverse for all labels.", "anchors": ["src/wifi/wifid-dbus.c:peer_dbus_get_path", "src/wifi/wifid-dbus.c:link_dbus_get_path", "src/wifi/wifid-dbus.c:peer_dbus_find", "src/wifi/wifid-dbus.c:link_dbus_find", "src/wifi/wifid.c:manager_find_link_by_label", "src/wifi/wifid-link.c:link_find_peer_by_label"]}
{"id": "C84", "title": "The announced device name is the user's or the host's", "statement": "wpa_supplicant announces the friendly name the user has set for the link, or else the name of the host.", "quantifier": "all histories, names", "why_tests_cant": "Two code paths pass the host name on; whether either ever runs needs all histories.", "anchors": ["src/wifi/wifid-link.c:link_supplicant_started", "src/wifi/wifid-link.c:link_set_friendly_name", "src/wifi/wifid.c:manager_add_udev_link", "src/wifi/wifid.c:manager_read_name", "src/wifi/wifid-supplicant.c:supplicant_write_config"]}
{"id": "C85", "title": "The configuration of wpa_supplicant says what was configured", "statement": "The configuration file wpa_supplicant is started with has exactly the settings intended: name, type, methods, driver parameter, AP scan and an intent of at most 15.", "quantifier": "all names, option values, histories", "why_tests_cant": "Texts of any content, chosen by users of the bus, are written into a line-based file.", "anchors": ["src/wifi/wifid-supplicant.c:supplicant_write_config", "src/wifi/wifid-link.c:link_set_go_intent", "src/wifi/wifid-link.c:link_set_config_methods"]}
{"id": "C86", "title": "Only the interfaces meant are managed", "statement": "With a chosen interface only this interface has a link; in lazy mode no link is managed unless a client asks; in a build that relies on udev a device is managed exactly if it is tagged; device events never crash the daemon.", "quantifier": "all histories of device events", "why_tests_cant": "Depends on the order of renames, tags and requests.", "anchors": ["src/wifi/wifid.c:manager_udev_fn", "src/wifi/wifid.c:manager_add_udev_link", "src/wifi/wifid-link.c:link_set_managed"]}
{"id": "C87", "title": "Cached properties of links are right", "statement": "A client that keeps the properties from InterfacesAdded and PropertiesChanged has the current InterfaceName, FriendlyName, WfdSubelements and Managed of every link.", "quantifier": "all histories", "why_tests_cant": "A forgotten signal shows only to clients that cache, in particular orders.", "anchors": ["src/wifi/wifid-dbus.c:link_dbus_properties_changed", "src/wifi/wifid-link.c:link_renamed", "src/wifi/wifid-link.c:link_set_friendly_name", "src/wifi/wifid-link.c:link_set_wfd_subelements", "src/wifi/wifid-link.c:link_set_managed"]}
{"id": "C88", "title": "Reading a message returns what its lines hold", "statement": "Reading a header or parameter returns the converted tokens of the first line of that name, in any case, or an error if there is no such line or token; a failed read leaves nothing entered, and no reading changes the message.", "quantifier": "all messages, names, formats and sequences of reads", "why_tests_cant": "Formats and messages are unbounded; the position in a message is hidden state.", "anchors": ["src/shared/rtsp.c:rtsp_message_readv_basic", "src/shared/rtsp.c:rtsp_message_readv", "src/shared/rtsp.c:rtsp_message_skip", "src/shared/rtsp.c:rtsp_message_rewind"]}
{"id": "C89", "title": "Each socket of the sink is closed exactly once", "statement": "Every descriptor the sink opens is closed exactly once, and never while it is still in use.", "quantifier": "all sequences of connects, closes, socket events and messages", "why_tests_cant": "A second close of a number that was given to another file in between does its damage elsewhere; tests see only a harmless EBADF.", "anchors": ["src/ctl/ctl-sink.c:sink_close", "src/ctl/ctl-sink.c:sink_connect", "src/shared/rtsp.c:rtsp_unref"]}
{"id": "C90", "title": "The connection flags of the sink are consistent", "statement": "Between events a sink is connected exactly if it has a bus, a connected sink has a socket, no hang-up is pending, and replies are awaited only while there is a bus.", "quantifier": "all sequences of events", "why_tests_cant": "The flags are set in four callbacks; only some orders of failures show a stale one.", "anchors": ["src/ctl/ctl-sink.c:sink_connected", "src/ctl/ctl-sink.c:sink_io", "src/ctl/ctl-sink.c:sink_rtsp_fn", "src/ctl/ctl-sink.c:sink_close"]}
{"id": "C91", "title": "The UIBC setting of the source is taken over exactly", "statement": "After a new wfd_uibc_capability the port is the number of its port part, remote input is on only if a port was given and it is wanted, and off if the value is none or the port is none.", "quantifier": "all values and histories", "why_tests_cant": "Values are free text; what sscanf returns at the end of the text is easily overlooked.", "anchors": ["src/ctl/ctl-sink.c:sink_handle_set_parameter"]}
{"id": "C92", "title": "Word completion offers exactly the fitting words and stays inside its table", "statement": "Completing the first word offers exactly the commands that start with it; completing a further word offers exactly the words of the completion function declared for that place that start with it; no other place of the table is read.", "quantifier": "all tables, lines and cursor positions", "why_tests_cant": "The place in the table is computed from the line as typed, which may hold any number of words and blanks.", "anchors": ["src/ctl/ctl-cli.c:completion_fn", "src/ctl/ctl-cli.c:get_args", "src/ctl/ctl-cli.c:links_peers_generator", "src/ctl/ctl-cli.c:command_generator"]}
{"id": "C93", "title": "The controller learns of all objects that exist when it starts", "statement": "After reading the list of existing objects at start every link and peer of the list is known, whatever the order of the list.", "quantifier": "all lists of objects", "why_tests_cant": "The order of the list is that of a hash table on the other side of the bus; a test sees one order.", "anchors": ["src/ctl/ctl-wifi.c:ctl_wifi_fetch", "src/ctl/ctl-wifi.c:ctl_wifi_parse_peer", "src/ctl/ctl-wifi.c:ctl_wifi_parse_object"]}
{"id": "C94", "title": "Sessions of the sink controller are properly bracketed", "statement": "Sessions do not overlap; connections to the source are tried and players started only within a session, one player at a time and only after a connection was tried; only the player that was started is killed; a session ends only after its player was killed and its connection closed.", "quantifier": "all sequences of bus messages, commands, timers and socket events, all results of system calls", "why_tests_cant": "Messages, timers and socket events interleave freely; a test sees a few orders.", "anchors": ["src/ctl/sinkctl.c:ctl_fn_peer_connected", "src/ctl/sinkctl.c:ctl_fn_peer_disconnected", "src/ctl/sinkctl.c:ctl_fn_peer_free", "src/ctl/sinkctl.c:kill_gst", "src/ctl/sinkctl.c:spawn_gst", "src/ctl/sinkctl.c:sink_timeout_fn"]}
{"id": "C95", "title": "The sink controller can be ended at any time", "statement": "Ending the program frees the sink, the links and the peers without using anything that was freed.", "quantifier": "all reachable states", "why_tests_cant": "The order of freeing matters only in states in which a session is running.", "anchors": ["src/ctl/sinkctl.c:ctl_interactive", "src/ctl/sinkctl.c:ctl_fn_peer_free", "src/ctl/ctl-sink.c:ctl_sink_close", "src/ctl/ctl-wifi.c:ctl_wifi_free"]}
{"id": "C96", "title": "The sink controller gives up connecting after three attempts", "statement": "Within a session at most three connections to the source are tried, with pauses of one, two and three seconds before them.", "quantifier": "all sequences of events, all results of connecting", "why_tests_cant": "Failures occur at once or later, and take different paths through the code.", "anchors": ["src/ctl/sinkctl.c:sink_timeout_fn", "src/ctl/sinkctl.c:ctl_fn_sink_disconnected"]}
{"id": "C97", "title": "The sink controller runs only on managed links", "statement": "The controller starts using a link only if the link is managed at that time.", "quantifier": "all states and events", "why_tests_cant": "There are three ways to start; the order of binding and appearing of links matters.", "anchors": ["src/ctl/sinkctl.c:cmd_run", "src/ctl/sinkctl.c:cmd_bind", "src/ctl/sinkctl.c:ctl_fn_link_new", "src/ctl/sinkctl.c:run_on"]}
{"id": "C98", "title": "Ending the sink controller stops the scans it started", "statement": "Ending the program sets P2PScanning to false for exactly the links the controller set it to true for and that are still scanning, and asks for nothing else.", "quantifier": "all reachable states", "why_tests_cant": "What is asked for at the end depends on all that happened before.", "anchors": ["src/ctl/sinkctl.c:ctl_interactive", "src/ctl/ctl-wifi.c:ctl_link_set_p2p_scanning", "src/ctl/sinkctl.c:ctl_fn_peer_free"]}
{"id": "C99", "title": "The controller's program is told of every object exactly once", "statement": "The functions of the program are called once when a link or peer appears and once when it disappears, a link after its peers; a peer is reported connected or disconnected only when that changes, and only between its two calls; at the end everything that was announced is reported gone.", "quantifier": "all programs that leave the copy alone, all sequences of bus messages", "why_tests_cant": "The calls depend on everything said on the bus before; a test sees a few conversations.", "anchors": ["src/ctl/ctl-wifi.c:ctl_peer_link", "src/ctl/ctl-wifi.c:ctl_peer_free", "src/ctl/ctl-wifi.c:ctl_link_free", "src/ctl/ctl-wifi.c:ctl_link_link", "src/ctl/ctl-wifi.c:ctl_peer_parse_properties"]}
{"id": "C100", "title": "The sink controller resumes scanning when it is free", "statement": "While the controller runs on a link and is neither in a session nor waiting for a peer, the link is scanning or the daemon was asked to scan, so that sources can find it: after starting, after a session, after a peer was given up and after a failed negotiation.", "quantifier": "all sequences of events, all results of calls", "why_tests_cant": "A session can end in many ways, each with its own path through the code.", "anchors": ["src/ctl/sinkctl.c:run_on", "src/ctl/sinkctl.c:scan_timeout_fn", "src/ctl/sinkctl.c:ctl_fn_peer_formation_failure", "src/ctl/sinkctl.c:ctl_fn_peer_disconnected", "src/ctl/sinkctl.c:ctl_fn_peer_free", "src/ctl/ctl-wifi.c:ctl_link_set_p2p_scanning"]}
{"id": "C101", "title": "The wifi controller asks only for what fits", "statement": "After any messages and command lines the controller's copy agrees with what the daemon said and granted; a message causes no request; a command line causes at most one request or display. A request names an object that exists, changes a property only to a different value, and touches scanning and connections only on managed links. What list and show display is what is known: every object once, with its values.", "quantifier": "all sequences of bus messages and command lines, all results of requests", "why_tests_cant": "Requests depend on the whole history of messages and commands; tests would see a few.", "anchors": ["src/ctl/wifictl.c:cmd_list", "src/ctl/wifictl.c:cmd_show", "src/ctl/wifictl.c:cmd_connect", "src/ctl/wifictl.c:cmd_p2p_scan", "src/ctl/ctl-wifi.c:ctl_link_set_managed"]}
{"id": "C102", "title": "Commands of the wifi controller do what they say to the object they name", "statement": "A name means the link with that label, interface name or friendly name, in this order; for peers the label, the friendly name, the address or number, alone or with @link. set-managed, set-friendly-name, p2p-scan, connect and disconnect make exactly the request asked for, about the object the name means, and do nothing if there is none, if nothing would change or if the link is not managed; show displays the object the name means.", "quantifier": "all reachable states, all names and arguments", "why_tests_cant": "Names can be ambiguous in many ways, and what a name means depends on all objects.", "anchors": ["src/ctl/ctl-wifi.c:ctl_wifi_search_link", "src/ctl/ctl-wifi.c:ctl_wifi_search_peer", "src/ctl/wifictl.c:cmd_set_managed", "src/ctl/wifictl.c:cmd_set_friendly_name", "src/ctl/wifictl.c:cmd_connect", "src/ctl/wifictl.c:cmd_disconnect", "src/ctl/wifictl.c:cmd_show"]}
{"id": "C103", "title": "The selected link stays selected until it is deselected or gone", "statement": "The selected link always exists. It changes only by select and when the link disappears. Commands without the name of a link do what they would do with the label of the selected link, and nothing if none is selected.", "quantifier": "all sequences of bus messages and command lines", "why_tests_cant": "The selection is a pointer that outlives the command; whether it dangles depends on what happens later.", "anchors": ["src/ctl/wifictl.c:cmd_select", "src/ctl/wifictl.c:selected_link", "src/ctl/wifictl.c:ctl_fn_link_free", "src/ctl/wifictl.c:cmd_set_managed"]}
{"id": "C104", "title": "The wifi controller does not crash", "statement": "No sequence of bus messages and command lines, and no single command, makes the controller dereference a null pointer or use a freed object.", "quantifier": "all objects, messages, command lines and results of requests", "why_tests_cant": "Sanitizers see only the sequences that are run.", "anchors": ["src/ctl/wifictl.c:ctl_interactive", "src/ctl/wifictl.c:ctl_single", "src/ctl/ctl-wifi.c:ctl_link_set_wfd_subelements", "src/ctl/ctl-wifi.c:ctl_link_set_friendly_name"]}
{"id": "C105", "title": "Ending the wifi controller stops the scans it started", "statement": "At the end of an interactive session, scanning is turned off on exactly the links on which the session had it turned on, once each, and nothing else is asked for.", "quantifier": "all sequences of bus messages and command lines", "why_tests_cant": "What is asked for at the end depends on the whole session.", "anchors": ["src/ctl/wifictl.c:ctl_interactive", "src/ctl/ctl-wifi.c:ctl_link_set_p2p_scanning"]}
{"id": "C106", "title": "The exit status of the wifi controller tells whether the command was done", "statement": "With a command as arguments, the program fails exactly if the command is unknown or has the wrong number of arguments, or what it asks for was refused or could not be asked for.", "quantifier": "all commands, arguments, objects and results of requests", "why_tests_cant": "There are many combinations of commands, states and failures.", "anchors": ["src/ctl/wifictl.c:ctl_single", "src/ctl/ctl-cli.c:cli_do", "src/ctl/wifictl.c:cmd_connect"]}
{"id": "C107", "title": "The DHCP helper reports only an address that the interface has", "statement": "A local address is sent to the Wi-Fi daemon only when it is the only address of the interface; while the client runs, the interface has the address of the last lease and the daemon was told it last; if the interface cannot be configured nothing is reported and the helper quits.", "quantifier": "all sequences of leases, lost leases, signals and clients served, and all failures of ip, the socket, the client and the server", "why_tests_cant": "The failures and the leases can be combined in unboundedly many ways.", "anchors": ["src/dhcp/dhcp.c:client_lease_fn", "src/dhcp/dhcp.c:manager_run", "src/dhcp/dhcp.c:flush_if_addr", "src/dhcp/dhcp.c:add_if_addr"]}
{"id": "C108", "title": "Every change of a lease is reported", "statement": "When a renewed lease has another address, mask, DNS server or gateway, the daemon is told.", "quantifier": "all leases after any history", "why_tests_cant": "Renewals with changed options are rare, and every combination counts.", "anchors": ["src/dhcp/dhcp.c:client_lease_fn"]}
{"id": "C109", "title": "The DHCP helper leaves the interface clean", "statement": "However it ends, the helper has either not touched the addresses of the interface or flushes them as its last act, after stopping its client or server; its exit status is 0 exactly if the client or server was made and started.", "quantifier": "all configurations, events and failures", "why_tests_cant": "Every place at which something fails would have to be tried.", "anchors": ["src/dhcp/dhcp.c:manager_free", "src/dhcp/dhcp.c:manager_new", "src/dhcp/dhcp.c:main"]}
{"id": "C110", "title": "The options of the DHCP helper mean what they say", "statement": "The helper accepts exactly the command lines whose addresses are IPv4 addresses made of the prefix and the given numbers, and uses these; the command lines of the Wi-Fi daemon are accepted for every subnet, and a server run with them gives out only addresses of its range, never its own.", "quantifier": "all command lines, all subnets, all sequences of packets", "why_tests_cant": "Command lines, texts and packet sequences are unbounded.", "anchors": ["src/dhcp/dhcp.c:parse_argv", "src/dhcp/dhcp.c:make_address", "src/dhcp/dhcp.c:make_subnet", "src/wifi/wifid-supplicant.c:supplicant_group_spawn_dhcp_server"]}
{"id": "C111", "title": "A controller's copy is the daemon's state", "statement": "At any time, a controller that has heard the messages of the Wi-Fi daemon since it started has exactly the daemon's links and public peers, each with its present names, sub-elements, connection, addresses and scanning state.", "quantifier": "all histories of devices, peers, connections and property changes, all programs on top of the copy", "why_tests_cant": "It is a statement about two programs and every interleaving of the events that reach the first.", "anchors": ["src/wifi/wifid-dbus.c:peer_dbus_properties_changed", "src/wifi/wifid-dbus.c:link_dbus_added", "src/wifi/wifid-peer.c:peer_supplicant_connected_changed", "src/ctl/ctl-wifi.c:ctl_wifi_properties_fn", "src/wifi/wifid-supplicant.c:supplicant_stopped"]}
{"id": "C112", "title": "A controller may start at any time", "statement": "A controller that starts at any time and reads the list of objects has exactly the daemon's links and public peers with all their values, and keeps having them as it hears what the daemon sends from then on.", "quantifier": "all histories before and after the start", "why_tests_cant": "The start may fall at any point of any history.", "anchors": ["src/ctl/ctl-wifi.c:ctl_wifi_fetch", "src/wifi/wifid-dbus.c:manager_dbus_enumerate"]}
{"id": "C113", "title": "A controller knows which links are managed", "statement": "The controllers show a link as managed exactly if the daemon manages it.", "quantifier": "all histories, all times at which the controller starts", "why_tests_cant": "A test sees one history; here all histories show the same fault.", "anchors": ["src/wifi/wifid-link.c:link_set_managed", "src/wifi/wifid.c:manager_add_udev_link", "src/ctl/ctl-wifi.c:ctl_link_parse_properties"]}
{"id": "C114", "title": "The DHCP server hears what the DHCP client means", "statement": "Every message of the DHCP client, built and sent by a host of either byte order, reaches a server on the link if it is sent to everybody or to the server's address, and the server (of either byte order) gets out of it exactly the message type, client, addresses and server the client meant; it drops what names another server.", "quantifier": "all messages, addresses, transaction numbers, request lists and extra options that fit, contents of uninitialised memory, byte orders of both hosts", "why_tests_cant": "The inputs are unbounded (options, memory contents), and a test of one program against itself on one machine cannot see mistakes of byte order that cancel out.", "anchors": ["src/dhcp/client.c:send_discover", "src/dhcp/client.c:send_request", "src/dhcp/client.c:send_release", "src/dhcp/client.c:add_request_options", "src/dhcp/server.c:listener_event", "src/dhcp/server.c:check_packet_type", "src/dhcp/common.c:dhcp_recv_l3_packet"]}
{"id": "C115", "title": "The DHCP client hears what the DHCP server means", "statement": "Every answer of the DHCP server comes back to the client that asked, in order: a legal packet with the client's transaction and hardware address, the address and lease time the server granted, the server's netmask, router and DNS server, and the server's own address as server identifier.", "quantifier": "all server states, all messages, all options of the server, both byte orders, contents of uninitialised memory", "why_tests_cant": "Server states and histories are unbounded, and the byte orders cannot be varied in a test on one machine.", "anchors": ["src/dhcp/server.c:send_packet_to_client", "src/dhcp/server.c:init_packet", "src/dhcp/server.c:send_ACK", "src/dhcp/server.c:get_interface_address", "src/dhcp/common.c:dhcp_send_raw_packet", "src/dhcp/client.c:dhcp_recv_l2_packet"]}
{"id": "C116", "title": "A DHCP handshake ends with the same lease on both sides", "statement": "A client that is started and a server with a free address exchange DISCOVER, OFFER, REQUEST and ACK, and then the client reports an address of the server's range, the server holds this address for the client from now for its lease time, and the client has the lease time and the netmask, router and DNS server of the server; a client started with the address it had gets it confirmed with one message.", "quantifier": "all histories of client and server before (other clients included), both byte orders", "why_tests_cant": "It is a liveness statement about two programs, all their histories and all contents of memory.", "anchors": ["src/dhcp/client.c:g_dhcp_client_start", "src/dhcp/client.c:listener_event", "src/dhcp/server.c:listener_event", "src/dhcp/server.c:send_offer", "src/dhcp/server.c:add_lease"]}
{"id": "C117", "title": "A DHCP lease is renewed and given back", "statement": "While the client keeps its lease, its requests to renew reach the server that gave the lease and prolong it on both sides, so that the lease is never lost while both are up; when the client releases it, the server frees the address.", "quantifier": "all histories of client and server, all sequences of timers, both byte orders", "why_tests_cant": "Renewal is about hours of two programs, their timers and byte orders.", "anchors": ["src/dhcp/client.c:start_renew", "src/dhcp/client.c:start_rebound", "src/dhcp/client.c:send_release", "src/dhcp/server.c:get_interface_address", "src/dhcp/server.c:listener_event"]}
{"id": "C118", "title": "A link-local address is taken only after asking for it", "statement": "The link-local client reports an address as available only if directly before it sent three ARP probes for it, at least a second apart, waited two more seconds and sent two announcements, and in all that time no ARP packet on the link claimed the address or asked for it; a client that is started and left alone does get the address it drew.", "quantifier": "all histories of starts, stops, timers (at any times) and packets of any contents, both byte orders", "why_tests_cant": "The histories and packet contents are unbounded, and real probing takes many seconds per attempt.", "anchors": ["src/dhcp/client.c:send_probe_packet", "src/dhcp/client.c:send_announce_packet", "src/dhcp/client.c:ipv4ll_probe_timeout", "src/dhcp/client.c:ipv4ll_announce_timeout", "src/dhcp/client.c:ipv4ll_recv_arp_packet", "src/dhcp/client.c:ipv4ll_start", "src/dhcp/ipv4ll.c:ipv4ll_send_arp_packet"]}
{"id": "C119", "title": "A link-local address that is held is defended once, then given up", "statement": "While the client holds an address, packets that do not claim it have no effect; the first claim is answered with exactly one announcement; a second claim within ten seconds makes the client report the loss and start again with another address; it reports that it has none only after ten conflicts.", "quantifier": "all histories, all packets, all times", "why_tests_cant": "It depends on unbounded histories of packets and on timers of seconds.", "anchors": ["src/dhcp/client.c:ipv4ll_recv_arp_packet", "src/dhcp/client.c:ipv4ll_defend_timeout", "src/dhcp/client.c:ipv4ll_stop", "src/dhcp/client.c:send_announce_packet"]}
{"id": "C120", "title": "The getters tell the link-local address that is held", "statement": "`g_dhcp_client_get_address` gives the link-local address exactly while the client holds it, with the netmask 255.255.0.0.", "quantifier": "all histories", "why_tests_cant": "The getter may be called at any point of any history.", "anchors": ["src/dhcp/client.c:g_dhcp_client_get_address", "src/dhcp/client.c:g_dhcp_client_get_netmask", "src/dhcp/client.c:ipv4ll_announce_timeout", "src/dhcp/client.c:ipv4ll_stop", "src/dhcp/client.c:g_dhcp_client_stop"]}
{"id": "C121", "title": "Two hosts on a link never have the same link-local address", "statement": "If all hosts on a link run this client, whatever they draw, whenever they start and stop, and whatever others send, no two of them have the same link-local address at the same time.", "quantifier": "all numbers of hosts, all interleavings of timers, deliveries (in any order, within half a second), starts and stops, and all foreign packets", "why_tests_cant": "It is a safety property of any number of concurrent programs with timers and a network.", "anchors": ["src/dhcp/client.c:ipv4ll_recv_arp_packet", "src/dhcp/client.c:send_probe_packet", "src/dhcp/client.c:send_announce_packet", "src/dhcp/client.c:ipv4ll_probe_timeout", "src/dhcp/ipv4ll.c:ipv4ll_send_arp_packet"]}
{"id": "C122", "title": "The packet filter passes the server's answers and nothing that is not needed", "statement": "The filter attached to the client's raw socket passes, uncut, every packet from port 67 to port 68 over UDP whatever its IP options, so no packet that the client would accept from a server is lost; every frame the project's server sends passes and is read as sent; apart from packets of other protocols that look like ARP everything else is dropped.", "quantifier": "all packets of any length and contents", "why_tests_cant": "Filters are executed by the kernel on arbitrary network input; the packet space is unbounded.", "anchors": ["src/dhcp/client.c:dhcp_l2_socket", "src/dhcp/client.c:dhcp_recv_l2_packet", "src/dhcp/common.c:dhcp_send_raw_packet"]}
{"id": "C123", "title": "Options come before the configuration file, which comes before the defaults", "statement": "Each program takes a setting from the last option of its command line that sets it, otherwise from the first configuration file found in the six places, otherwise the documented default; switches are on iff an option or the file says so; help, version and wrong options end the program with the right status; the words of autocmd are run as the command.", "quantifier": "all command lines (any number and order of options), all configuration files, all texts", "why_tests_cant": "The combinations of options, files and texts are unbounded, and the programs need root, a bus and hardware to run.", "anchors": ["src/shared/util.h:load_ini_file", "src/wifi/wifid.c:load_ini_config", "src/wifi/wifid.c:parse_argv", "src/ctl/sinkctl.c:parse_argv", "src/ctl/sinkctl.c:main", "src/ctl/wifictl.c:parse_argv", "src/ctl/wifictl.c:main", "src/shared/shl_log.c:log_parse_arg"]}
{"id": "C124", "title": "The player and wpa_supplicant are told what was chosen", "statement": "The player that is started reads from its command line the chosen port, scale, debug level and sound switch and the negotiated resolution; wpa_supplicant reads its configuration, interface, sockets, verbosity and syslog switch; its configuration has the chosen methods, driver parameter and intent.", "quantifier": "all settings and sessions, all texts, with the players' own way to read options (getopts)", "why_tests_cant": "It relates the settings to the way another program reads its command line, for all texts.", "anchors": ["src/ctl/sinkctl.c:launch_player", "src/wifi/wifid-supplicant.c:supplicant_run", "src/wifi/wifid-supplicant.c:supplicant_write_config", "src/wifi/wifid.c:parse_argv"]}
{"id": "C125", "title": "The first wpa_supplicant of PATH is started", "statement": "The daemon starts the wpa_supplicant of the first directory of PATH that has one that can be executed, and finds it whenever there is one.", "quantifier": "all values of PATH, all states of the file system", "why_tests_cant": "PATH and the file system are arbitrary.", "anchors": ["src/wifi/wifid-supplicant.c:supplicant_find", "src/wifi/wifid-supplicant.c:supplicant_spawn"]}
{"id": "C126", "title": "DHCPv6 messages are what the client was set up to send", "statement": "Whatever is requested and sent along, a message stays inside its buffer and within 1496 bytes, is a header with its type and number and a list of options that reads back; it has only the wanted options, in order, and all of them if they fit and the client id is known; repeated messages keep the number and count the elapsed time.", "quantifier": "all clients, option lists of any length and contents, table orders, and clocks", "why_tests_cant": "Option lists and identifiers are unbounded; the message is only seen by a remote server.", "anchors": ["src/dhcp/client.c:send_dhcpv6_msg", "src/dhcp/client.c:add_dhcpv6_request_options", "src/dhcp/client.c:add_dhcpv6_send_options", "src/dhcp/client.c:copy_option"]}
{"id": "C127", "title": "The DHCPv6 option setters add exactly the association asked for", "statement": "Setting an identity association, a list of addresses, prefixes, the option request or the client id leaves exactly the one option with the right contents among the options to send, whatever was there before.", "quantifier": "all clients, all lists of addresses and prefixes, all lists of codes, all MAC addresses and times", "why_tests_cant": "The option tables are mutated in place and the lists are unbounded.", "anchors": ["src/dhcp/client.c:g_dhcpv6_client_set_ia", "src/dhcp/client.c:g_dhcpv6_client_set_ias", "src/dhcp/client.c:g_dhcpv6_client_set_pd", "src/dhcp/client.c:g_dhcpv6_client_set_oro", "src/dhcp/client.c:g_dhcpv6_create_duid", "src/dhcp/client.c:g_dhcpv6_client_clear_send"]}
{"id": "C128", "title": "Addresses, prefixes, timers and lifetimes of a DHCPv6 reply are the server's", "statement": "From a well-formed association of the client the last address with a possible lifetime, all such prefixes, the timers and the status are taken, wherever the option is in the packet; others' associations change nothing.", "quantifier": "all associations with any number of sub-options, all positions and surroundings", "why_tests_cant": "Nested options of arbitrary number and size come from the network.", "anchors": ["src/dhcp/client.c:get_addresses", "src/dhcp/common.c:dhcpv6_get_sub_option"]}
{"id": "C129", "title": "Name and server lists of a DHCPv6 reply are read as sent", "statement": "A list of well-formed domain names is read as these names written with dots, a list of DNS or SNTP servers as its addresses in order, whatever surrounds it and whatever was on the stack.", "quantifier": "all lists of any length", "why_tests_cant": "The lists are unbounded and come from the network; overruns need not show in a test.", "anchors": ["src/dhcp/client.c:get_domains", "src/dhcp/client.c:get_dhcpv6_option_value_list"]}
{"id": "C130", "title": "A DHCPv6 client shows the values of the last reply", "statement": "After a reply the values of each requested code are what the last option with that code says, none if there is none; all other values are unchanged.", "quantifier": "all sets of requested codes, all replies, all earlier values", "why_tests_cant": "It relates two unbounded tables through an arbitrary packet.", "anchors": ["src/dhcp/client.c:get_dhcpv6_request", "src/dhcp/client.c:g_dhcp_client_get_option"]}
{"id": "C131", "title": "A DHCPv6 client takes exactly the answers to what it sent", "statement": "In each state a message with another number, client id, server id or of the wrong type calls nothing and changes no value; the answer ends the conversation with the values of the message and calls the callback registered for the message sent.", "quantifier": "all states, clients and messages", "why_tests_cant": "The attacker chooses the messages; silence on wrong ones cannot be tested exhaustively.", "anchors": ["src/dhcp/client.c:listener_event", "src/dhcp/client.c:check_package_owner", "src/dhcp/client.c:g_dhcp_client_start"]}
{"id": "C132", "title": "Each event of wpa_supplicant has exactly the effect it describes", "statement": "For every event line made of words, key=word, key=\"encoded SSID\" and key='name' arguments, the daemon does exactly what the event says in terms of these arguments, and nothing for other or incomplete events; an SSID or passphrase of any bytes cannot change interface, role or owner of a group, and text that follows (a device name with quotes) cannot change an address before it. No datagram leads to undefined behaviour. Partial: a quote in a device name can add arguments after it (proved).", "quantifier": "all event lines, SSIDs, passphrases, device names and datagrams, both sockets", "why_tests_cant": "SSIDs and device names are chosen by strangers within radio range; a test tries a few.", "anchors": ["src/wifi/wifid-supplicant.c:supplicant_event", "src/wifi/wifid-supplicant.c:supplicant_event_p2p_group_started", "src/wifi/wifid-supplicant.c:supplicant_event_p2p_device_found", "src/wifi/wifid-supplicant.c:supplicant_global_fn"]}
{"id": "C133", "title": "Peers are known by what wpa_supplicant reports about them", "statement": "A device reported lost is no longer a peer, all others stay; the answer to P2P_PEER gives the peer the address, name and Wi-Fi Display elements of its lines. Partial: a device found under an interface address that differs from its device address is never removed, and an unexpected error text becomes a peer (both proved).", "quantifier": "all reachable states, all device addresses, all reports", "why_tests_cant": "It composes the parser with every reachable state of the peer table.", "anchors": ["src/wifi/wifid-supplicant.c:supplicant_parse_peer", "src/wifi/wifid-supplicant.c:supplicant_event_p2p_device_lost", "src/wifi/wifid-supplicant.c:supplicant_p2p_peer_fn"]}
{"id": "C134", "title": "A directory is made with its parents, below the prefix only", "statement": "shl_mkdir_p and shl_mkdir_p_prefix succeed exactly if the path is not empty, begins with the prefix, meets no file, and all that is missing may be made and lies below the prefix. After success exactly the missing directories were added, with the given mode; after a failure at most some parents below the prefix. Nothing is removed or changed, and no part of the prefix is made. miracle-wifid therefore makes /run/miracle and /run/miracle/wifi (mode 0700) below an existing /run and nothing else.", "quantifier": "all file systems (trees of directories and files with arbitrary refusals), paths, prefixes and modes", "why_tests_cant": "The trees, repeated slashes and places of failure are unbounded; unit tests would run against one real tree.", "anchors": ["src/shared/shl_util.c:shl__mkdir_parents", "src/shared/shl_util.c:shl__mkdir_p", "src/shared/shl_util.c:shl_mkdir_p_prefix", "src/shared/shl_util.c:shl__is_dir", "src/wifi/wifid.c:manager_startup"]}
{"id": "C135", "title": "Hash tables with typed keys are maps", "statement": "A table of unsigned int, 64-bit or string keys gives on lookup and removal exactly the element with the key, if there is one, strings being compared by contents with NULL as a key of its own; iterations see each element once. This holds through growth, rehashing, failed allocations, equal hashes, addresses that come back under other keys, and remembered hashes. Partial: as in C11 all addresses need the same highest bit.", "quantifier": "all histories of up to 2^29 calls, all keys, contents of memory and signs of char", "why_tests_cant": "Which elements collide depends on addresses and on history; a test sees a few layouts.", "anchors": ["src/shared/shl_htable.h:shl_htable_lookup_str", "src/shared/shl_htable.h:shl_htable_hash_str", "src/shared/shl_htable.c:shl_htable_rehash_str", "src/shared/shl_htable.c:shl_htable_compare_str", "src/shared/shl_htable.h:shl_htable_lookup_uint", "src/shared/shl_htable.h:shl_htable_insert_u64"]}
{"id": "C136", "title": "Requests reach wpa_supplicant as asked", "statement": "A device name, WFD elements, the peer, PIN and method of a connection, the peer asked about and the group to be removed are heard by wpa_supplicant (which knows no quoting) as they were given, each in its place; no text turns a request into another command, another setting or another peer; refused calls send nothing; after its status wpa_supplicant gets name, frequencies, a request for its first peer and the switch for Wi-Fi display, in this order. Partial: a text is heard as given exactly if it has no white space, quotation mark or backslash; others are escaped and put in quotation marks, which wpa_supplicant takes literally (a friendly name with a blank shows up in quotation marks; a PIN with blanks adds words, such as options; both proved).", "quantifier": "all names, elements, addresses, methods and PINs up to 10^9 bytes, all contents of fresh memory", "why_tests_cant": "The texts come from host names and D-Bus callers; a test tries a handful of names, and a mock that parses quotes hides the defect.", "anchors": ["src/wifi/wifid-supplicant.c:supplicant_set_friendly_name", "src/wifi/wifid-supplicant.c:supplicant_set_wfd_subelements", "src/wifi/wifid-supplicant.c:supplicant_peer_connect", "src/wifi/wifid-supplicant.c:supplicant_status_fn", "src/wifi/wifid-supplicant.c:supplicant_group_free", "src/wifi/wifid-supplicant.c:supplicant_p2p_start_scan", "src/shared/shl_util.c:shl_qstr_join"]}
{"id": "C137", "title": "A bus and its messages live as long as someone refers to them", "statement": "Through any history of references taken and dropped, calls, cancellations, written and parsed messages, an RTSP or wpa_supplicant bus and its messages are never touched after they were freed, and all that is held or queued is alive. Dropping a reference of the bus frees it with all queued messages exactly if nobody else refers to it or to a message of it and no message is in both queues of an RTSP bus; otherwise it only counts. Dropping the last reference of a message that is not queued frees it, and the bus with it if nobody else refers to that. Freeing never recurses deeper than twice. A bus of wpa_supplicant that is left without references is freed when the event loop calls it next. Partial: an RTSP bus dropped while a request has not been written yet is never freed, and a bus of wpa_supplicant whose last reference is that of a queued message is not freed at once (both proved).", "quantifier": "all histories, any number of messages and references", "why_tests_cant": "Circles of references go wrong only in certain orders of drops; leaks are silent and use after free often is.", "anchors": ["src/shared/rtsp.c:rtsp_unref", "src/shared/rtsp.c:rtsp_message_unref", "src/shared/rtsp.c:rtsp_unlink_waiting", "src/shared/rtsp.c:rtsp_unlink_outgoing", "src/shared/rtsp.c:rtsp_drop_message", "src/shared/rtsp.c:rtsp_write_message", "src/shared/wpas.c:wpas_unref", "src/shared/wpas.c:wpas_message_unref", "src/shared/wpas.c:wpas__unlink_message"]}
{"id": "C138", "title": "A Wi-Fi Display session comes up, from bytes to PLAY", "statement": "Let a sink be connected with no SETUP waiting, and let a source send the messages of the standard in order through the message API: OPTIONS, its answer to the sink's OPTIONS, GET_PARAMETER, a SET_PARAMETER with presentation URL and video formats that some table knows, a SET_PARAMETER that triggers SETUP, and its answer to SETUP with a session. Whatever else the messages say, and however the bytes are cut into reads, the sink receives them all, its reaction is defined, and what it sends and reports is exactly: the reply to OPTIONS under the source's number, its own OPTIONS, a reply with one line for each parameter asked for that it supports, an empty reply, the resolution the tables give, an empty reply, SETUP for that URL with its port, and PLAY for that URL in that session, with consecutive numbers.", "quantifier": "all scripts of a source that keeps the order, all texts in them that can be sent, all cuts of the bytes, all configurations whose answers fit 512 bytes, all reachable connected states", "why_tests_cant": "It is a statement about two parties, a byte stream and a conversation at once; a test sees one source and one way of cutting the stream.", "anchors": ["src/ctl/ctl-sink.c:sink_handle_options", "src/ctl/ctl-sink.c:sink_handle_get_parameter", "src/ctl/ctl-sink.c:sink_handle_set_parameter", "src/ctl/ctl-sink.c:sink_setup_fn", "src/shared/rtsp.c:rtsp_message_seal", "src/shared/rtsp.c:parser_feed_char", "src/shared/rtsp.c:rtsp_call_reply"]}
{"id": "C139", "title": "RTSP requests go to the match callbacks in the order of registration", "statement": "What arrives and is not a reply is given to the registered callbacks in the order in which they were added, those added by callbacks meanwhile at the end, each at most once, until one returns something other than 0; the bus gets the value of the last one called, and if it is 0 nobody was left out. Removing takes out the registration added last of those that are equal; what callbacks remove is gone after the message, all others stay in order, and nothing remains marked. That a removed callback is not called any more, that removing twice within a callback removes two, and that every message comes to an end if all callbacks do, is refuted.", "quantifier": "all histories of additions, removals and messages, all behaviours of the callbacks (what they add, remove and return)", "why_tests_cant": "The order and the effect of changes made while the list is walked depend on the whole history and on what the callbacks do.", "anchors": ["src/shared/rtsp.c:rtsp_call", "src/shared/rtsp.c:rtsp_add_match", "src/shared/rtsp.c:rtsp_remove_match", "src/shared/rtsp.c:rtsp_free_match"]}
{"id": "C140", "title": "Connections to wpa_supplicant leave no sockets behind", "statement": "A client bus can be opened exactly if a descriptor is to be had, its own name can be taken and somebody listens at the control path (a path of up to 107 bytes or @abstract: and a name); it is then connected to that socket, can be answered at its name, and no other file has changed. One that cannot be opened leaves nothing. Clients of a process that are open have different names. A server can be made exactly if nobody listens at its path and the path can be taken; what a dead server left there does not matter, and one that listens is never disturbed. Whatever the process and others do, a path that leads to a socket made by the process is the name of a bus that is still open, its descriptors are those of open busses, and files at other paths are not touched. That making a server spares files that are not sockets, and that closing removes only the own socket, is refuted.", "quantifier": "all histories of opening, making, closing and of what others do in the file system; all paths; fewer than 2^64 clients", "why_tests_cant": "Leftovers depend on the order of failures and on what other processes do at the same paths.", "anchors": ["src/shared/wpas.c:wpas_open", "src/shared/wpas.c:wpas_create", "src/shared/wpas.c:wpas__bind_client_socket", "src/shared/wpas.c:wpas__connect_client_socket", "src/shared/wpas.c:wpas__bind_server_socket", "src/shared/wpas.c:wpas__close"]}
{"id": "C141", "title": "The text of a message gives back the message", "statement": "The text of a request or a reply made through the message API, given to rtsp_message_new_from_raw on any bus, gives a sealed message that says the same: the same method and URI or code and phrase, the same header names and tokens in the same order, the same body headers and body, with the lengths and content type the serialiser adds; its own text is the one this bus would have made for the same item with its next number, and the bus has counted that number. That the number of the message (CSeq) is kept, that the text is never read past its end, that a quoted line break is kept, and that data frames are understood is refuted.", "quantifier": "all sendable requests and replies whose header tokens and phrase have no line break, all states of both cookie counters, up to 61 headers or an allocator that does not move the array", "why_tests_cant": "Only one literal text is tried by the tests; the byte read behind the text is invisible on a C string.", "anchors": ["src/shared/rtsp.c:rtsp_message_new_from_raw", "src/shared/rtsp.c:rtsp_message_append_body", "src/shared/rtsp.c:rtsp__strncspn", "src/shared/rtsp.c:rtsp_message_from_head", "src/shared/rtsp.c:rtsp_message_seal"]}
{"id": "C142", "title": "A device that asks to be connected is connected to", "statement": "When wpa_supplicant reports that a device the daemon shows asks for a group, the sink controller, which runs on that link, knows the device as one with Wi-Fi Display and has no session, takes the request, and the daemon sends wpa_supplicant exactly one P2P_CONNECT for exactly this device, with the method and PIN the device proposed before (push button if nothing was proposed); daemon and controller then both wait for this device. That this is so whatever was proposed is refuted: if the device shows a PIN that would have to be entered here, or another device is being connected, nothing is sent while the controller stops its search and waits.", "quantifier": "all reachable states of the daemon, all states of the controller with that device, all datagrams of wpa_supplicant (interface, level, further arguments), all proposals", "why_tests_cant": "The outcome depends on the bytes of two sockets, the states of two processes and the messages between them.", "anchors": ["src/wifi/wifid-supplicant.c:supplicant_event_p2p_go_neg_request", "src/wifi/wifid-dbus.c:peer_dbus_go_neg_request", "src/wifi/wifid-dbus.c:peer_dbus_connect", "src/ctl/sinkctl.c:ctl_fn_peer_go_neg_request", "src/wifi/wifid-supplicant.c:supplicant_peer_connect"]}
{"id": "C143", "title": "From the request of a device to the connection to its RTSP server", "statement": "A device asks, its request is taken, wpa_supplicant reports the group which the device owns, the DHCP helper reports a lease with a gateway, and the controller's timer runs out: then, in this order and nothing else, the controller has called Connect once, has noted the session with this device, and has tried once to connect, to the first gateway of the lease; daemon and controller both hold the device as connected, with the interface of the group, the leased address and the gateway's address. The same holds if this device owns the group, the device joins it and gets a lease from the server of the group: the attempt goes to the leased address. That it holds whatever the order of the reports is refuted: a lease reported before the device is seen to join is never announced.", "quantifier": "all reachable states of the daemon, all states of the controller with that device and no session, all datagrams with these events, all leases with a gateway whose texts fit a packet", "why_tests_cant": "Three processes and their messages take part; a test would need wpa_supplicant, a DHCP server and a bus.", "anchors": ["src/wifi/wifid-supplicant.c:supplicant_event_p2p_group_started", "src/wifi/wifid-supplicant.c:supplicant_group_comm_fn", "src/dhcp/dhcp.c:client_lease_fn", "src/wifi/wifid-peer.c:peer_supplicant_connected_changed", "src/ctl/ctl-wifi.c:ctl_wifi_properties_fn", "src/ctl/sinkctl.c:ctl_fn_peer_connected", "src/ctl/sinkctl.c:sink_timeout_fn"]}
{"id": "C144", "title": "A player is started for what sink and source agree on", "statement": "The sink controller's idea of its connection and the sink's own state never differ, whatever the daemon, the user, the timers and the source do: open exactly when there is a socket, connected exactly when the sink is, and without a session neither socket nor player. A player is started only by a SET_PARAMETER of the source over a standing connection whose formats name a resolution of the tables, when none is running; it is exactly one, and its command line, read as players read it, has the port that SETUP asks the source to send to and that resolution, and for remote input the address the controller last connected to. A source that keeps to the order of the standard, its bytes cut anyhow, gets its session: the sink's part of the conversation and no more, one player, and PLAY.", "quantifier": "all runs of the controller and the sink with any settings, extensions and answers of the environment; all orderly sources, all cuttings of their bytes", "why_tests_cant": "Controller, sink, wire parser and command line are different modules with state of their own; tests reach one event at a time.", "anchors": ["src/ctl/sinkctl.c:ctl_fn_sink_resolution_set", "src/ctl/sinkctl.c:spawn_gst", "src/ctl/sinkctl.c:launch_player", "src/ctl/sinkctl.c:sink_timeout_fn", "src/ctl/ctl-sink.c:sink_handle_set_parameter", "src/ctl/ctl-sink.c:ctl_sink_connect", "src/ctl/ctl-sink.c:ctl_sink_close"]}
{"id": "C145", "title": "From the request of a phone to its picture", "statement": "A device asks to be connected; its request is taken, wpa_supplicant starts the group (owned by either side), the lease is reported, the controller's timer runs out, the connection is accepted and the device says what a source says: then wpa_supplicant was sent one P2P_CONNECT, and one player is started that listens on the port the device is asked to send to, in the resolution of its M4, and PLAY was requested over a connection to the device's address.", "quantifier": "all reachable states of the daemon; all reachable states of the controller, its sink and its players that know the device and have no session; all datagrams, leases and orderly sources", "why_tests_cant": "Four programs take part (wpa_supplicant, the DHCP helper, the daemon, the controller) and the source; an end-to-end test needs two radios and tries one order of one set of messages.", "anchors": ["src/wifi/wifid-supplicant.c:supplicant_event_p2p_go_neg_request", "src/wifi/wifid-supplicant.c:supplicant_event_p2p_group_started", "src/wifi/wifid-supplicant.c:supplicant_group_comm_fn", "src/ctl/ctl-wifi.c:ctl_wifi_properties_fn", "src/ctl/sinkctl.c:sink_timeout_fn", "src/ctl/ctl-sink.c:sink_rtsp_fn", "src/ctl/sinkctl.c:launch_player"]}
{"id": "C146", "title": "The player follows the session", "statement": "A player runs only while there is a picture to show, and shows it in the resolution agreed on. Proved: at most one player at a time, and none without a session (ending a session sends it SIGTERM and closes the connection). Refuted: when the source ends the connection, in whatever state, the player goes on, the session stays and nothing connects again, until the device is disconnected; and a resolution agreed on later never reaches a player.", "quantifier": "all runs of the controller, its sink and its players; every state with a standing connection for the refutation", "why_tests_cant": "The state between the end of the connection and that of the group exists only with a real source.", "anchors": ["src/ctl/sinkctl.c:ctl_fn_sink_disconnected", "src/ctl/sinkctl.c:ctl_fn_sink_resolution_set", "src/ctl/sinkctl.c:spawn_gst", "src/ctl/sinkctl.c:kill_gst", "src/ctl/ctl-sink.c:sink_rtsp_fn"]}
{"id": "C147", "title": "A session ends when the connection to the device does", "statement": "While a session shows the picture of a device, the device leaves or its group ends. Then the player is killed, the connection to the source closed, the group removed if nobody else is in it (wpa_supplicant is sent exactly one P2P_GROUP_REMOVE for its interface), and daemon and controller know the device as before: shown, in no group, not connected, so that its next request is taken. Proved for a group of the device that is removed or whose DHCP client dies or closes its socket, and for a device that leaves a group of this device, alone or not. Refuted: if wpa_supplicant reports that a group of this device is gone, or its DHCP server dies, while any device is in it, the daemon uses the group after freeing it.", "quantifier": "all reachable states of the daemon in which the device is connected, all states of the controller with a session with it; all reachable states of its sink and player; all datagrams that say so; both ways the helper can end", "why_tests_cant": "The end of a group comes over the air; its effect goes through two programs, and the use after free shows only when memory is reused.", "anchors": ["src/wifi/wifid-supplicant.c:supplicant_event_p2p_group_removed", "src/wifi/wifid-supplicant.c:supplicant_event_ap_sta_disconnected", "src/wifi/wifid-supplicant.c:supplicant_group_free", "src/wifi/wifid-supplicant.c:supplicant_peer_drop_group", "src/wifi/wifid-peer.c:peer_supplicant_connected_changed", "src/ctl/sinkctl.c:ctl_fn_peer_disconnected", "src/ctl/sinkctl.c:kill_gst"]}
{"id": "C148", "title": "A device can come back any number of times", "statement": "A device asks, is connected to, and its group ends, again and again: each time wpa_supplicant is sent one P2P_CONNECT and one P2P_GROUP_REMOVE for that group and nothing else, each time exactly the gateway of that lease is connected to, and in the end there is no session, no player and no connection, and the device can be met again.", "quantifier": "all numbers of rounds, each with its own datagrams, interface and lease; all reachable states of the daemon and states of the controller that know the device", "why_tests_cant": "Left-over state of one connection (the pending peer, the group, addresses, timers) would spoil a later one; tests try one or two rounds.", "anchors": ["src/wifi/wifid-supplicant.c:supplicant_event_p2p_go_neg_request", "src/wifi/wifid-supplicant.c:supplicant_event_p2p_group_started", "src/wifi/wifid-supplicant.c:supplicant_event_p2p_group_removed", "src/wifi/wifid-supplicant.c:supplicant_group_free", "src/ctl/sinkctl.c:ctl_fn_peer_connected", "src/ctl/sinkctl.c:ctl_fn_peer_disconnected"]}
{"id": "C149", "title": "Whatever a device does in its session, the next one works", "statement": "A device visits again and again: it asks, is connected to, then does anything on its connection (refuses it, closes it at any time, sends any messages in any order, lets the timer of the controller run out), and leaves or ends the group. Each visit goes like the first: one P2P_CONNECT and one P2P_GROUP_REMOVE are sent, only the address of this visit is connected to, at least once; at the end there is no session, no player, no socket. After all of them, if the device then behaves, exactly one player is started for what it and the sink agree on. The one thing the device can do against this is to make the sink overrun a buffer of its own (C54).", "quantifier": "all numbers of visits, of either kind of group, each with its own datagrams, leases and events on its connection; all reachable states of daemon, controller, sink and player that know the device", "why_tests_cant": "The state left behind by a misbehaving source would show only in a later session; no test runs all ways a session can go wrong, in sequence.", "anchors": ["src/ctl/sinkctl.c:ctl_fn_peer_connected", "src/ctl/sinkctl.c:ctl_fn_peer_disconnected", "src/ctl/sinkctl.c:ctl_fn_sink_disconnected", "src/ctl/sinkctl.c:sink_timeout_fn", "src/ctl/sinkctl.c:spawn_gst", "src/ctl/ctl-sink.c:ctl_sink_close", "src/ctl/ctl-sink.c:sink_io_fn", "src/wifi/wifid-supplicant.c:supplicant_group_free"]}
{"id": "C150", "title": "An interface belongs to one group", "statement": "At no time does the Wi-Fi daemon keep two groups on the same network interface, whatever wpa_supplicant reports, in whatever order and how often. So a message about the group on an interface is about one group: when its removal is reported, that group goes and every other stays as it was.", "quantifier": "all histories of events of a link without undefined behaviour, all pairs of groups, all interface names", "why_tests_cant": "Groups are looked up by interface, the first match is used; a second group on the interface would show only after particular sequences of events.", "anchors": ["src/wifi/wifid-supplicant.c:find_group_by_ifname", "src/wifi/wifid-supplicant.c:supplicant_event_p2p_group_started", "src/wifi/wifid-supplicant.c:supplicant_event_p2p_group_removed", "src/wifi/wifid-supplicant.c:supplicant_group_new", "src/wifi/wifid-supplicant.c:supplicant_group_free"]}
{"id": "C151", "title": "The DHCP helper works on the interface it is given", "statement": "miracle-dhcp --netdev NAME starts exactly if there is an interface of that name, and then with the number of that interface; an interface that exists is always found; the socket used to ask is closed. Proved for all names without a colon that do not have 16 bytes. Refuted for the others: of a name of 16 bytes the interface named by its first 15 is taken (the length check lets it through and the field has no room for the terminating zero), of a name with a colon the interface named by what is before it.", "quantifier": "all machines (tables of interfaces as Linux allows them), all names", "why_tests_cant": "Needs interfaces with particular names on the machine; a unit test would try one or two short names.", "anchors": ["src/dhcp/dhcp.c:if_name_to_index", "src/dhcp/dhcp.c:manager_new"]}
