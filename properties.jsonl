{"id": "C01", "title": "CAN transfer CRC accepts exactly the correct trailer", "statement": "A receiver that runs the CAN transfer CRC (CRC-16/CCITT-FALSE) over a byte string followed by two more bytes ends with residue zero if and only if those two bytes are the big-endian CRC of the byte string.", "quantifier": "every byte string of any length and every two-byte trailer", "why_tests_cant": "There are 2^16 trailers per string and unboundedly many strings; tests sample a few known answers.", "anchors": ["canadensis_can/src/rx/buildup.rs: Buildup::add", "canadensis_can/src/tx/breakdown.rs: Breakdown::finish", "canadensis_core/src/crc.rs: TransferCrc"]}
{"id": "C02", "title": "CRC-32C trailer tracker accepts exactly the correct trailer", "statement": "After digesting any byte string, the UDP/serial transfer-CRC tracker reports 'correct' if and only if the string has at least four bytes and its last four bytes are the little-endian CRC-32C of all earlier bytes; splitting the string over several digest calls never changes the answer.", "quantifier": "every byte string and every way to split it into digest calls", "why_tests_cant": "The tracker delays four bytes and the split positions interact with the ring of pending bytes; the combinations are unbounded.", "anchors": ["canadensis_core/src/crc.rs: CrcTracker, Crc32c"]}
{"id": "C03", "title": "CRCs detect every short error burst", "statement": "If a message protected by the CAN transfer CRC (resp. CRC-32C) is changed only within one window of at most 16 (resp. 32) consecutive bits, its CRC changes, so the receiver does not accept it.", "quantifier": "every message length, every burst position, every non-zero burst pattern", "why_tests_cant": "The number of (message, burst) pairs is unbounded; the guarantee is algebraic.", "anchors": ["canadensis_core/src/crc.rs", "canadensis_core/src/crc.rs", "canadensis_header/src/lib.rs: header checksum"]}
{"id": "C04", "title": "CAN ID encode/decode round trip", "statement": "For every valid transfer header, the CAN ID that the transmitter produces fits in 29 bits and parses back (at the receiver) to the same priority, kind, subject/service, source and destination; an anonymous message parses back as anonymous; every ID with the reserved bits violated is rejected.", "quantifier": "all priorities, kinds, port IDs, source and destination node IDs, payloads (for the anonymous pseudo-ID)", "why_tests_cant": "The header space has about 2^29 elements and the pseudo-ID depends on unbounded payloads.", "anchors": ["canadensis_can/src/tx.rs: make_can_id, make_pseudo_id", "canadensis_can/src/rx.rs: Receiver::parse_can_id"]}
{"id": "C05", "title": "CAN segmentation is well formed", "statement": "For every payload and MTU the transmitter emits frames that each have a legal CAN / CAN FD length not above the MTU, exactly the first has the start flag, exactly the last has the end flag, toggle bits alternate starting at 1, all carry the transfer ID, and the number of frames equals the number reserved in the queue beforehand.", "quantifier": "all payload lengths, MTU 8 or 64, all transfer IDs", "why_tests_cant": "Off-by-one errors only appear at particular payload lengths around multiples of the frame capacity plus padding and CRC.", "anchors": ["canadensis_can/src/tx.rs: push_inner", "canadensis_can/src/tx/breakdown.rs: Breakdown", "canadensis_can/src/lib.rs: calculate_frame_stats, round_up_frame_length"]}
{"id": "C06", "title": "CAN transfer round trip", "statement": "If the frames of one transfer are delivered in order to a receiver that is subscribed to its port (with the start frame not a duplicate of the session's last transfer), then exactly one transfer is returned, on the last frame, with the sent priority, port, source, destination and transfer ID, and its payload is the sent payload followed by zero padding, cut to the subscription's maximum payload size.", "quantifier": "all payloads, MTUs, headers, subscription extents, and every prior receiver state in which the session accepts a new transfer", "why_tests_cant": "Unbounded payload sizes and prior histories.", "anchors": ["canadensis_can/src/tx.rs", "canadensis_can/src/tx/breakdown.rs", "canadensis_can/src/rx.rs", "canadensis_can/src/rx/subscription.rs", "canadensis_can/src/rx/buildup.rs"]}
{"id": "C07", "title": "CAN push is all or nothing", "statement": "Pushing a transfer either reports an error and leaves the outgoing queue unchanged, or succeeds and the queue contains all of its frames, in order, after every frame of equal or higher priority.", "quantifier": "all queue contents, capacities and transfers", "why_tests_cant": "Failure happens only when the queue fills in the middle of a transfer; the number of queue states is unbounded.", "anchors": ["canadensis_can/src/tx.rs: push_inner", "canadensis_can/src/queue/array_queue.rs"]}
{"id": "C08", "title": "CAN receiver never panics", "statement": "Whatever frames arrive in whatever order, receiving a frame never panics.", "quantifier": "all frame sequences, payload sizes, timestamps and subscriptions", "why_tests_cant": "The input space is every sequence of frames an arbitrary (possibly hostile) bus can carry.", "anchors": ["canadensis_can/src/rx/buildup.rs: Buildup::add (payload_size -= 2)", "canadensis_can/src/rx.rs", "canadensis_can/src/rx/subscription.rs"]}
{"id": "C09", "title": "CAN receiver suppresses duplicates", "statement": "After a transfer with transfer ID t was delivered for a source and port, further start frames with the same transfer ID whose timestamps are within the transfer-ID timeout do not cause a second delivery and do not disturb the session.", "quantifier": "all receiver states, frames, timestamps within the timeout (with 32-bit wrap-around)", "why_tests_cant": "Wrap-around of both the 5-bit transfer ID and the 32-bit clock, and arbitrary interleavings.", "anchors": ["canadensis_can/src/rx/subscription.rs: checked_accept_non_anonymous, has_transfer_id_timed_out, flag_successful_transfer"]}
{"id": "C10", "title": "CAN sessions are independent", "statement": "The transfers returned for one (transfer kind, port, source node) depend only on the frames carrying that kind, port and source: removing or inserting frames of other sessions anywhere in the history changes nothing for it.", "quantifier": "all pairs of frame histories that agree on the frames of one session", "why_tests_cant": "Quantifies over arbitrary interleavings of unboundedly many sessions.", "anchors": ["canadensis_can/src/rx.rs", "canadensis_can/src/rx/subscription.rs", "canadensis_core/src/session.rs"]}
{"id": "C11", "title": "CAN receiver returns only subscribed and addressed transfers", "statement": "A transfer is returned only if its port and kind are currently subscribed; a non-loopback service transfer only if its destination is this node's ID, and never by an anonymous receiver; no transfer is returned after unsubscribing.", "quantifier": "all histories of subscribe, unsubscribe, set_id and receive operations", "why_tests_cant": "A safety property over unbounded operation histories.", "anchors": ["canadensis_can/src/rx.rs: accept_frame, can_accept_service, apply_frame_filters", "canadensis_core/src/subscription.rs"]}
{"id": "C12", "title": "CAN received payload respects the extent", "statement": "The payload of a returned transfer is never longer than the payload_size_max given when subscribing.", "quantifier": "all frames, histories and extents", "why_tests_cant": "Depends on the combination of frame path (anonymous, single-frame, multi-frame) and sizes.", "anchors": ["canadensis_can/src/rx/subscription.rs: accept_anonymous, accept_with_session", "canadensis_can/src/rx/buildup.rs"]}
{"id": "C13", "title": "CAN multi-frame integrity", "statement": "Every multi-frame transfer returned by the receiver is the concatenation, minus its two CRC bytes and cut to the extent, of the data of a subsequence of accepted frames of one session with one transfer ID that starts with a start frame, ends with an end frame, has alternating toggles, and whose total CRC residue is zero.", "quantifier": "all frame histories including loss, duplication, reordering and corruption", "why_tests_cant": "The adversary controls an unbounded frame sequence.", "anchors": ["canadensis_can/src/rx/buildup.rs", "canadensis_can/src/rx/subscription.rs"]}
{"id": "C14", "title": "CAN transfer-ID timeout releases the session", "statement": "A start frame whose timestamp is more than the transfer-ID timeout after the last transfer is always accepted as a new transfer, even when it carries the same transfer ID; so a receiver can never be locked out of a sender that restarts its transfer IDs.", "quantifier": "all session states, transfer IDs and (wrapping) timestamps", "why_tests_cant": "Requires all states and clock wrap-around.", "anchors": ["canadensis_can/src/rx/subscription.rs: has_transfer_id_timed_out, checked_accept_non_anonymous"]}
{"id": "C15", "title": "Subscription table behaves as a map", "statement": "After any history of subscribe/unsubscribe calls, the receiver holds, for each kind and port, exactly the parameters of the latest subscribe not followed by an unsubscribe; subscribing again replaces the previous parameters and the list of subscribers has no repetitions.", "quantifier": "all histories of subscribe and unsubscribe calls", "why_tests_cant": "swap_remove based bookkeeping over unbounded histories.", "anchors": ["canadensis_core/src/subscription.rs: DynamicSubscriptionManager", "canadensis_can/src/rx.rs: subscribe, unsubscribe"]}
{"id": "C16", "title": "CAN transfer-ID tracker counts per destination", "statement": "For any history of requests, the k-th ID handed out for a destination is k mod 32, independent of requests for other destinations, and the packed bit storage never mixes two destinations.", "quantifier": "all histories over all 128 destinations", "why_tests_cant": "128 counters packed at 5-bit offsets across 32-bit words; histories are unbounded.", "anchors": ["canadensis_can/src/lib.rs: CanTransferIdTracker"]}
{"id": "C17", "title": "Array queue is a stable priority queue", "statement": "Any sequence of push, return, peek and pop on the fixed-capacity ring-buffer queue returns the same results as a sorted list in which push inserts after all frames of equal or higher priority (lower or equal CAN ID), return inserts before all frames of equal or lower priority, and pop removes the first; a push is refused exactly when the queue is full.", "quantifier": "all operation histories and all capacities including 0", "why_tests_cant": "Ring-buffer wrap-around positions times contents times histories.", "anchors": ["canadensis_can/src/queue/array_queue.rs: ArrayQueue"]}
{"id": "C18", "title": "Queue reservation contract", "statement": "If try_reserve(n) succeeds, the next n pushes succeed; for the array queue it succeeds exactly when n free places exist.", "quantifier": "all queue states, all n", "why_tests_cant": "All states and arguments.", "anchors": ["canadensis_can/src/queue/mod.rs: FrameQueue::try_reserve", "canadensis_can/src/queue/array_queue.rs", "canadensis_can/src/queue/single_frame_queue.rs"]}
{"id": "C19", "title": "Queue flushing neither loses, duplicates nor reorders frames", "statement": "While flushing a queue into a driver, frames are offered in priority order; every frame that leaves the queue was either accepted by the driver or had expired, and a frame the driver refuses with 'would block' stays at the head.", "quantifier": "all queue contents, driver behaviours, clocks", "why_tests_cant": "The driver is an arbitrary environment; histories are unbounded.", "anchors": ["canadensis_can/src/queue/mod.rs: SingleQueueDriver, flush_single_queue, frame_is_expired"]}
{"id": "C20", "title": "Hardware filters have no false negatives", "statement": "Every CAN ID that the receiver would process for one of its current subscriptions (as a message on a subscribed subject, or a service transfer for a subscribed service addressed to this node) is accepted by at least one of the filters the node requests, both before and after reduction to the hardware's filter count.", "quantifier": "all 29-bit IDs, all subscription sets, node IDs and positive filter counts", "why_tests_cant": "2^29 IDs times unbounded subscription sets.", "anchors": ["canadensis_can/src/driver.rs: optimize_filters, make_filter", "canadensis_filter_config/src/lib.rs: optimize"]}
{"id": "C21", "title": "Filter optimisation returns a bounded superset", "statement": "Given n ideal filters and a positive maximum m, optimize returns at most m (exactly min(n,m)) filters and every ID accepted by an ideal filter is accepted by a returned one.", "quantifier": "all filter lists, all maxima, all IDs", "why_tests_cant": "The greedy merge loop runs over unbounded lists.", "anchors": ["canadensis_filter_config/src/lib.rs: optimize, merge_filters, compact"]}
{"id": "C22", "title": "Redundant-transport deduplication", "statement": "With several redundant interfaces, at any time the frames of one session are taken from a single interface only, and another interface is taken over only after the transfer-ID timeout without frames on the active one; hence duplicates from another interface within the timeout are never delivered.", "quantifier": "all interleavings of frames from any number of interfaces", "why_tests_cant": "Schedules are unbounded.", "anchors": ["canadensis_can/src/redundant/deduplicator.rs"]}
{"id": "C23", "title": "Redundant drivers and queues send on every interface", "statement": "A frame pushed into a redundant queue pair / driver pair is handed to both; the operation reports failure only if both fail, and the result does not depend on which one failed first.", "quantifier": "all driver states and results", "why_tests_cant": "Combination of independent results over histories.", "anchors": ["canadensis_can/src/redundant/mod.rs", "canadensis_can/src/redundant/redundant_queue.rs"]}
{"id": "C24", "title": "Stored filter list is complete or absent", "statement": "After filters are applied to a queue-only driver, the stored list is either the complete list of requested filters or absent (None) when memory ran out; a partial list that would silently drop subscribed frames is never stored.", "quantifier": "all filter lists and every point at which allocation may fail", "why_tests_cant": "Allocation failure points are not reachable in unit tests.", "anchors": ["canadensis_can/src/queue/queue_only_driver.rs: apply_filters"]}
{"id": "C25", "title": "Transfer header encode/decode round trip", "statement": "Encoding any valid header (version 1, frame index below 2^31) as 24 bytes and decoding it gives the same header; decoding accepts a 24-byte string only if its checksum, version and priority are valid.", "quantifier": "all headers; all 24-byte strings", "why_tests_cant": "2^192 byte strings.", "anchors": ["canadensis_header/src/lib.rs: Header, RawHeader, TryFrom, From"]}
{"id": "C26", "title": "Header corruption is detected", "statement": "Any change of an encoded header that is confined to at most 16 consecutive bits makes decoding fail.", "quantifier": "all headers and all such corruptions", "why_tests_cant": "All headers times all bursts.", "anchors": ["canadensis_header/src/lib.rs"]}
{"id": "C27", "title": "COBS output is delimiter free and fits the computed size", "statement": "The escaped form of any byte string contains no zero byte and is never longer than the size computed beforehand, so escaping into a buffer of that size always succeeds.", "quantifier": "all byte strings", "why_tests_cant": "The overhead formula is only tight at multiples of 254.", "anchors": ["canadensis_serial/src/cobs.rs: escape_from_iter, escaped_size"]}
{"id": "C28", "title": "COBS round trip", "statement": "Unescaping the escaped form of any byte string yields that byte string.", "quantifier": "all byte strings", "why_tests_cant": "The failing inputs need a run of exactly a multiple of 254 non-zero bytes followed by a zero.", "anchors": ["canadensis_serial/src/cobs.rs: escape_from_iter, Unescaper"]}
{"id": "C29", "title": "Serial transfer round trip", "statement": "If the bytes produced by pushing a transfer are fed to a receiver subscribed to its port (addressed to it, newer than the last transfer of that session), the receiver returns exactly that transfer, with the payload cut to the extent.", "quantifier": "all transfers, extents, receiver states", "why_tests_cant": "Unbounded payloads and states.", "anchors": ["canadensis_serial/src/tx.rs: push", "canadensis_serial/src/rx.rs: handle_byte, complete_transfer"]}
{"id": "C30", "title": "Serial receiver suppresses duplicates and old transfers", "statement": "While a session has not expired, the transfer IDs returned for one source and port are strictly increasing.", "quantifier": "all byte streams and clock readings", "why_tests_cant": "Arbitrary byte streams.", "anchors": ["canadensis_serial/src/rx.rs: is_interested, complete_transfer, clean_expired_sessions"]}
{"id": "C31", "title": "Serial receiver resynchronises", "statement": "From any state whatsoever, after the bytes of a complete frame produced by the transmitter (with its leading and trailing delimiters) the receiver has delivered that frame's transfer if it is subscribed to it; preceding garbage can destroy at most frames that overlap it.", "quantifier": "all receiver states and all preceding byte streams", "why_tests_cant": "All states of the byte-level state machine.", "anchors": ["canadensis_serial/src/rx.rs: handle_byte"]}
{"id": "C32", "title": "Serial transmit queue is FIFO and all or nothing", "statement": "Pushing a transfer either enqueues all of its bytes or none, and flushing sends the bytes in order, keeping unsent bytes when the driver refuses.", "quantifier": "all queue states, drivers, transfers", "why_tests_cant": "Driver behaviour is arbitrary.", "anchors": ["canadensis_serial/src/tx.rs: push, flush"]}
{"id": "C33", "title": "UDP segmentation is well formed", "statement": "For any payload and MTU of at least 25 bytes the transmitter emits datagrams no longer than the MTU whose frame indices are 0,1,2,..., with only the last one flagged as last, whose payloads concatenate to the transfer payload followed by its CRC-32C.", "quantifier": "all payloads and MTUs", "why_tests_cant": "Boundary conditions at multiples of the capacity.", "anchors": ["canadensis_udp/src/tx/breakdown.rs: Breakdown"]}
{"id": "C34", "title": "UDP transfer round trip", "statement": "If the datagrams of one transfer are delivered in order to a subscribed receiver in a session that accepts it, exactly one transfer is returned with the same header fields and the payload cut to the extent.", "quantifier": "all payloads, MTUs, headers and session states", "why_tests_cant": "Failures occur only at payload lengths that put 1-3 CRC bytes into the last datagram.", "anchors": ["canadensis_udp/src/tx/breakdown.rs", "canadensis_udp/src/rx.rs", "canadensis_udp/src/rx/buildup.rs"]}
{"id": "C35", "title": "UDP receiver returns only service transfers addressed to this node", "statement": "A receiver never returns a service request or response whose destination is not its own node ID.", "quantifier": "all datagrams and receiver states", "why_tests_cant": "Arbitrary traffic.", "anchors": ["canadensis_udp/src/rx.rs: accept_inner", "canadensis_core/src/transport.rs: Receiver::receive contract"]}
{"id": "C36", "title": "UDP receiver suppresses duplicates", "statement": "Within the transfer-ID timeout, no transfer ID is delivered twice for one source and port.", "quantifier": "all datagram histories", "why_tests_cant": "Needs an incomplete multi-frame transfer in the history before the duplicate.", "anchors": ["canadensis_udp/src/rx.rs", "canadensis_udp/src/rx/buildup.rs"]}
{"id": "C37", "title": "UDP receiver never panics", "statement": "Whatever datagrams arrive at whatever times, receiving never panics.", "quantifier": "all datagram contents and arrival times", "why_tests_cant": "The failing case needs more than 35 minutes between two transfers of a session.", "anchors": ["canadensis_udp/src/rx.rs: elapsed-time subtraction"]}
{"id": "C38", "title": "UDP multi-frame integrity", "statement": "Every multi-frame transfer returned is the concatenation of the payloads of datagrams 0,1,2,...,n of one transfer ID, the last flagged as last, minus the trailing CRC, and the CRC matches.", "quantifier": "all datagram histories including loss, duplication and reordering", "why_tests_cant": "Arbitrary datagram sequences.", "anchors": ["canadensis_udp/src/rx/buildup.rs: Buildup"]}
{"id": "C39", "title": "UDP addresses are unambiguous", "statement": "Multicast addresses for subjects and nodes are injective, disjoint, inside 239.0.0.0/9 and convert back to the same subject or node ID.", "quantifier": "all subjects and node IDs, all IPv4 addresses", "why_tests_cant": "2^32 addresses.", "anchors": ["canadensis_udp/src/address.rs"]}
{"id": "C40", "title": "UDP multicast membership follows subscriptions", "statement": "As long as the socket operations succeed, after any history of subscribe and unsubscribe calls the socket is a member of exactly the groups of the currently subscribed subjects plus the node's own group if and only if some service is subscribed.", "quantifier": "all histories", "why_tests_cant": "Unbounded histories.", "anchors": ["canadensis_udp/src/rx.rs: subscribe_message, unsubscribe_message, subscribe_request, ..."]}
{"id": "C41", "title": "Serialization cursor round trip", "statement": "Writing any sequence of unsigned fields of widths 1..64, booleans, byte arrays and alignments and reading it back with the same widths returns the written values reduced modulo 2^width, at every bit offset.", "quantifier": "all field sequences, values, offsets", "why_tests_cant": "Offsets 0..7 times widths times neighbours; sequences are unbounded.", "anchors": ["canadensis_encoding/src/cursor/serialize.rs: WriteCursor", "canadensis_encoding/src/cursor/deserialize.rs: ReadCursor"]}
{"id": "C42", "title": "Deserialization is total and zero-extending", "statement": "Reading any sequence of fields from any byte string never panics and returns the value obtained by extending the string with infinitely many zero bytes.", "quantifier": "all byte strings and field sequences", "why_tests_cant": "Unbounded inputs.", "anchors": ["canadensis_encoding/src/cursor/deserialize.rs: ReadCursor"]}
{"id": "C43", "title": "Serialization stays in bounds", "statement": "Writing a field succeeds exactly when its bits fit into the rest of the buffer (otherwise it panics), changes only those bits, and the bit layout is little-endian: bit i of the k-th written bit position p is bit (p mod 8) of byte p/8.", "quantifier": "all cursor positions, widths, values", "why_tests_cant": "All positions and neighbours.", "anchors": ["canadensis_encoding/src/cursor/serialize.rs"]}
{"id": "C44", "title": "Delimited composites are isolated and extensible", "statement": "A delimited composite reads back as written; the reader of the enclosing object continues exactly after the composite whatever the inner type reads; an inner type that reads fewer or more fields than were written sees truncation or zero extension; a length beyond the buffer is reported as an error.", "quantifier": "all payloads, inner readers, surrounding fields", "why_tests_cant": "Quantifies over arbitrary inner types (versions).", "anchors": ["canadensis_encoding/src/cursor/serialize.rs: write_composite", "canadensis_encoding/src/cursor/deserialize.rs: read_composite, fork"]}
{"id": "C45", "title": "Bit arrays consume exactly their bits", "statement": "Serializing a bit array of length n and deserializing an array of length n returns the same bits and leaves both cursors exactly n bits further, so fields after the array are read correctly.", "quantifier": "all lengths up to capacity, contents, cursor offsets", "why_tests_cant": "Fails only for lengths that are multiples of 8 and below capacity at aligned offsets.", "anchors": ["canadensis_encoding/src/bits.rs: BitArray::serialize, deserialize_in_place"]}
{"id": "C46", "title": "Aligned byte writes reject misalignment", "statement": "write_aligned_bytes panics when the cursor is not byte aligned and never overwrites bits written before.", "quantifier": "all cursor states and byte strings", "why_tests_cant": "All states.", "anchors": ["canadensis_encoding/src/cursor/serialize.rs: write_aligned_bytes"]}
{"id": "C47", "title": "Bit array is an array of booleans with a total order", "statement": "get after set returns the set bit and leaves other indices unchanged; equality and ordering depend only on length and bits, and form a total order.", "quantifier": "all lengths, indices, contents", "why_tests_cant": "Unbounded.", "anchors": ["canadensis_encoding/src/bits.rs: BitArray"]}
{"id": "C48", "title": "Bit length set minimum and maximum are exact", "statement": "For every bit length set expression, min_value and max_value are the least and greatest element of its expansion, which is never empty.", "quantifier": "all expressions of any depth", "why_tests_cant": "Unbounded expression trees.", "anchors": ["canadensis_bit_length_set/src/operator.rs: min, max, expand"]}
{"id": "C49", "title": "Bit length set modulo is exact", "statement": "For every expression and non-zero divisor, the computed set of remainders equals the set of remainders of the expansion; in particular is_aligned answers correctly.", "quantifier": "all expressions and divisors", "why_tests_cant": "Correctness of the repetition-count reduction is number-theoretic; the padding case fails for divisors not divisible by the alignment.", "anchors": ["canadensis_bit_length_set/src/operator.rs: modulo", "canadensis_bit_length_set/src/lib.rs: is_aligned"]}
{"id": "C50", "title": "Bit length set equality means equal expansions", "statement": "Two sets compare equal exactly when their expansions are equal (the structural shortcut is sound), and the ordering agrees with equality.", "quantifier": "all pairs of expressions", "why_tests_cant": "Unbounded trees.", "anchors": ["canadensis_bit_length_set/src/lib.rs: PartialEq, Ord", "canadensis_bit_length_set/src/operator.rs: structural_equal"]}
{"id": "C51", "title": "Published transfer IDs are consecutive per subject", "statement": "The k-th transfer handed to the transmitter for a subject since publishing was started carries transfer ID k (modulo the transport's range), regardless of other subjects and of transmit errors.", "quantifier": "all histories of start/stop/publish calls", "why_tests_cant": "Unbounded histories.", "anchors": ["canadensis/src/publisher.rs", "canadensis/src/node/core.rs: start_publishing, publish"]}
{"id": "C52", "title": "Request transfer IDs are consecutive per service and destination", "statement": "The k-th request handed to the transmitter for a service and destination carries transfer ID k modulo the range; a full destination table reports out of memory and does not disturb known destinations.", "quantifier": "all histories", "why_tests_cant": "Unbounded histories.", "anchors": ["canadensis/src/requester.rs: Requester, TransferIdFixedMap"]}
{"id": "C53", "title": "Responses answer their request", "statement": "A response sent with a token has the service, transfer ID and priority of the request that produced the token, is addressed to the requesting node and carries this node's ID as source.", "quantifier": "all requests and responses", "why_tests_cant": "All header values.", "anchors": ["canadensis/src/node/core.rs: handle_incoming_transfer, send_response_payload"]}
{"id": "C54", "title": "Heartbeat uptime", "statement": "The n-th heartbeat reports an uptime of n seconds, saturating at 2^32-1, with the most recently set mode, health and status code.", "quantifier": "all n and all histories of setters", "why_tests_cant": "Saturation needs 2^32 calls.", "anchors": ["canadensis/src/node/minimal.rs", "canadensis/src/service/heartbeat.rs"]}
{"id": "C55", "title": "Port list is accurate and periodic", "statement": "After any history of starting/stopping publishers, clients, subscribers and servers through a BasicNode, the port list it publishes names exactly the ports in use, and it is published every 10th per-second call.", "quantifier": "all histories, including more than 255 subjects", "why_tests_cant": "The representation switches from sparse list to mask after 255 entries; histories are unbounded.", "anchors": ["canadensis/src/node/basic.rs: insert_into_list, remove_from_list, run_per_second_tasks"]}
{"id": "C56", "title": "Port list service never panics", "statement": "Publishing the port list never panics, however many ports are in use.", "quantifier": "all port sets", "why_tests_cant": "Needs more than 255 subscriptions.", "anchors": ["canadensis/src/service/port_list.rs: publish_port_list"]}
{"id": "C57", "title": "Plug-and-play server allocates unique node IDs", "statement": "Clients with different unique IDs never receive the same node ID, a client that asks again receives the same ID, and an ID known to be in use is never allocated.", "quantifier": "all histories of allocation requests and heartbeats", "why_tests_cant": "Unbounded histories.", "anchors": ["canadensis/src/service/pnp/server.rs: handle_allocation_message, handle_message, assign"]}
{"id": "C58", "title": "Plug-and-play client takes only IDs allocated to it", "statement": "A client adopts a node ID only from a message on the allocation subject, from a node that has an ID, that matches its unique ID and carries an ID valid for the transport; and it always adopts the ID from such a message, and stops asking.", "quantifier": "all messages", "why_tests_cant": "All messages.", "anchors": ["canadensis_pnp_client/src/lib.rs: receive", "canadensis/src/service/pnp/client.rs"]}
{"id": "C59", "title": "Registers: access rules", "statement": "A network access request never changes a register that is not mutable, a rejected write leaves the register unchanged, a validated register never holds a value its validator rejects, and the response always reports the value after the request.", "quantifier": "all registers, values and requests", "why_tests_cant": "All register types and values.", "anchors": ["canadensis/src/register.rs: register_handle_access", "canadensis/src/register/basic.rs", "canadensis/src/service/register_server.rs"]}
{"id": "C60", "title": "Handler chains deliver to the first willing handler", "statement": "In a chain of handlers a transfer is offered to the handlers in order until one handles it and to none after; chaining is associative.", "quantifier": "all chains and transfers", "why_tests_cant": "Unbounded chains.", "anchors": ["canadensis/src/lib.rs: TransferHandlerChain"]}
{"id": "C61", "title": "Session tables behave as finite maps", "statement": "All session-table implementations (linear map, array, dynamic map) behave as a map from source node to session, and differ only in when they report out of memory.", "quantifier": "all operation histories", "why_tests_cant": "Unbounded histories.", "anchors": ["canadensis_core/src/session.rs: SessionLinearMap, SessionArray, SessionDynamicMap"]}
{"id": "C62", "title": "Serial receiver never panics", "statement": "No sequence of received bytes, subscription changes, node ID changes, clock readings and allocation failures makes the serial receiver panic.", "quantifier": "all sequences of events on a new receiver", "why_tests_cant": "Arbitrary byte streams.", "anchors": ["canadensis_serial/src/rx.rs: handle_byte, receive", "canadensis_serial/src/header_collector.rs"]}
{"id": "C63", "title": "Serial receiver returns only complete, correct, subscribed and addressed transfers", "statement": "Every transfer returned by the serial receiver is the content of a delimited byte string in the stream that unescapes to a valid header, a payload and the matching payload CRC; the payload is cut to the extent, the port is subscribed, and a service transfer is addressed to this node.", "quantifier": "all sequences of events on a new receiver", "why_tests_cant": "Arbitrary byte streams.", "anchors": ["canadensis_serial/src/rx.rs: handle_byte, complete_transfer"]}
{"id": "C64", "title": "The payload handed to the transmitter is the value's serialization", "statement": "The payload of a published message, request or response is exactly the bits the value's serializer writes, in order, zero padded to whole bytes; making it never panics and fails only if it is longer than 64 bytes and the allocation fails.", "quantifier": "all values of all types with a lawful serializer, both allocation outcomes", "why_tests_cant": "All types and values.", "anchors": ["canadensis/src/serialize.rs: do_serialize", "canadensis/src/publisher.rs", "canadensis/src/requester.rs"]}
{"id": "C65", "title": "A node publishes and requests exactly on the ports it was told to", "statement": "After any history, publishers() and clients() list exactly the ports that were started successfully and not stopped since; starting answers Duplicate for a port that is on, Memory for a full table, Anonymous for clients of an anonymous node; publishing on another port answers NotPublishing and sends nothing.", "quantifier": "all histories of calls on a node", "why_tests_cant": "Unbounded histories.", "anchors": ["canadensis/src/node/core.rs: start_publishing, stop_publishing, start_sending_requests, stop_sending_requests"]}
{"id": "C66", "title": "Anonymous publishing", "statement": "An anonymous publisher hands over messages without a source, with consecutive transfer IDs; a message longer than the MTU is refused with a length error, hands over nothing and uses no transfer ID.", "quantifier": "all sequences of sends, all payloads and MTUs", "why_tests_cant": "Unbounded sequences.", "anchors": ["canadensis/src/anonymous.rs: AnonymousPublisher"]}
{"id": "C67", "title": "Generated code writes the DSDL format", "statement": "For every data type compiled from DSDL and every value of its Rust type, serialize into a large enough buffer writes exactly the bits that the DSDL specification prescribes (fields in order, least significant bit first, composites at byte boundaries, delimiter headers, array lengths, union tags), and size_bits announces the number of bytes they take. So the payload that a node sends is the value in the standard format.", "quantifier": "all data types of any nesting depth, all values, all buffers", "why_tests_cant": "Types are trees of any depth and the choice of aligned and unaligned functions depends on length sets; a test compiles a handful of types.", "anchors": ["canadensis_codegen_rust/src/impl_serialize.rs", "canadensis_codegen_rust/src/size_bits.rs", "canadensis_codegen_rust/src/lib.rs: supports_zero_copy", "canadensis_dsdl_frontend/src/compile.rs: add_field, add_padding_field, make_union_bit_length"]}
{"id": "C68", "title": "Generated code reads what it wrote", "statement": "For every data type compiled from DSDL and every value in range: deserializing the bytes that serialize wrote, with anything after them, returns an equal value.", "quantifier": "all data types, all values, all bytes after the end", "why_tests_cant": "Types are trees of any depth; values are unbounded.", "anchors": ["canadensis_codegen_rust/src/impl_deserialize.rs", "canadensis_codegen_rust/src/impl_serialize.rs"]}
{"id": "C69", "title": "Reading arbitrary bytes does not panic", "statement": "Deserializing any bytes as any data type returns a value of the type or an error, and never panics.", "quantifier": "all data types, all byte strings", "why_tests_cant": "The bytes come from the network; there are infinitely many and a test tries a few.", "anchors": ["canadensis_codegen_rust/src/impl_deserialize.rs", "canadensis_encoding/src/bits.rs: BitArray::deserialize"]}
{"id": "C70", "title": "Missing bytes are zeros", "statement": "Deserializing a byte string that ends early gives the same result as the string with zero bytes appended (implicit zero extension), except that the string must not end inside a delimited composite.", "quantifier": "all data types, all byte strings, any number of zero bytes", "why_tests_cant": "Unbounded types and strings; the zero-copy path is different code.", "anchors": ["canadensis_codegen_rust/src/impl_deserialize.rs", "canadensis_encoding/src/lib.rs: deserialize_zero_copy", "canadensis_encoding/src/cursor/deserialize.rs"]}
{"id": "C71", "title": "The compiler knows the lengths", "statement": "The number of bits of every serialized value, padded to bytes, is in the bit length set that the compiler computes for the type.", "quantifier": "all data types, all values", "why_tests_cant": "Length sets are symbolic and stand for exponentially many lengths.", "anchors": ["canadensis_dsdl_frontend/src/compile.rs", "canadensis_dsdl_frontend/src/types.rs"]}
{"id": "C72", "title": "A basic node answers requests for node information", "statement": "BasicNode::receive answers every request for node information with the information that the node was made with, to the node that asked and with its transfer ID and priority, and delivers every other transfer to the user's handler, in order and once. No other transfer is lost and no request for information reaches the handler.", "quantifier": "all sequences of received transfers, all handlers", "why_tests_cant": "Unbounded sequences and arbitrary handlers.", "anchors": ["canadensis/src/node/basic.rs: receive, NodeInfoHandler", "canadensis/src/service/get_info.rs"]}
{"id": "C73", "title": "A basic node is transparent", "statement": "Every function of Node called on a BasicNode returns what the node inside returns for it, sends the same transfers and makes the same subscriptions; keeping the port list never fails or panics.", "quantifier": "all histories of calls, any number of ports", "why_tests_cant": "The port list changes its representation after 255 subjects; histories are unbounded.", "anchors": ["canadensis/src/node/basic.rs: impl Node for BasicNode, insert_into_list, remove_from_list"]}
{"id": "C74", "title": "Plug-and-play server: reactions to messages", "statement": "A server answers every allocation request with exactly one message on the same subject that repeats what the request says about the unique ID and carries an ID valid for the transport, unless all IDs belong to others; it sends nothing for any other message, including the replies of allocators. A heartbeat reserves the ID of its source and changes nothing else. No message makes the server panic.", "quantifier": "all states of the server, all messages", "why_tests_cant": "All payloads, all tables.", "anchors": ["canadensis/src/service/pnp/server.rs: new, handle_message, handle_allocation_message, assign"]}
{"id": "C75", "title": "Plug-and-play client: requests", "statement": "The request of a client is one message on the allocation subject with the unique ID (version 2) or its 48-bit hash (version 1) in the standard format; a transport that cannot take it now gives an error and no panic, and the client can receive the replies to its request.", "quantifier": "all unique IDs, all states of the transport", "why_tests_cant": "All unique IDs; failures of the transport at any call.", "anchors": ["canadensis/src/service/pnp/client.rs: new, send_request", "canadensis_pnp_client/src/lib.rs: new, send_request"]}
{"id": "C76", "title": "Registers: a client can list them", "statement": "A list request with an index is answered with the name of the register at that index or with an empty name, changes nothing and never fails; a client that asks for the indices from 0 until it gets an empty name finds exactly the names of the registers of the block, in their order.", "quantifier": "all blocks of registers of any implementation, all requests", "why_tests_cant": "Blocks, names and request bytes are unbounded.", "anchors": ["canadensis/src/register.rs: handle_list_request", "canadensis/src/service/register_server.rs: handle_request", "canadensis_derive_register_block/src/lib.rs", "canadensis/src/register/basic.rs: FixedStringRegister::new"]}
{"id": "C77", "title": "Registers: no request makes the node panic", "statement": "Whatever requests other nodes send, in any order, a node with registers answers or ignores them and does not panic.", "quantifier": "all blocks of the library's register types, all histories of request payloads", "why_tests_cant": "The payloads are arbitrary bytes from the network; the histories are unbounded.", "anchors": ["canadensis/src/register.rs: handle_request", "canadensis/src/register/basic.rs", "canadensis/src/service/register_server.rs: handle_request", "canadensis_data_types/src/generated.rs: uavcan.register.Value"]}
{"id": "C78", "title": "Registers: client and server agree", "statement": "What a client writes into an access request with the generated types is what the server applies, and what it reads from the response is the access and the value of the register afterwards; no request is longer than the extents that the servers subscribe with.", "quantifier": "all names, values and blocks of registers", "why_tests_cant": "All values of all types, through serialization, the server and deserialization.", "anchors": ["canadensis/src/register.rs: subscribe_requests, handle_request", "canadensis/src/service/register_server.rs: new", "canadensis_data_types/src/generated.rs: uavcan.register"]}
{"id": "C79", "title": "Registers: the two servers are interchangeable", "statement": "`RegisterHandler` and `RegisterServerService` answer every request in the same way and leave the registers in the same state.", "quantifier": "all blocks of registers and all requests", "why_tests_cant": "All request payloads and registers.", "anchors": ["canadensis/src/register.rs: handle_request", "canadensis/src/service/register_server.rs: handle_request"]}
{"id": "C80", "title": "The CRCs are those of the specification", "statement": "For every message, `Crc16CcittFalse` is CRC-16/CCITT-FALSE, `Crc32c` is CRC-32C, and the hash of a unique ID is the lower 48 bits of CRC-64/WE, as defined by division of polynomials.", "quantifier": "all byte sequences", "why_tests_cant": "Check values fix single messages; interoperation needs all of them.", "anchors": ["canadensis_core/src/crc.rs: Crc16CcittFalse, Crc32c", "canadensis/src/service/pnp/mod.rs: crc_64we_48_bits", "canadensis_pnp_client/src/lib.rs: crc_64we_48_bits"]}
{"id": "C83", "title": "DSDL constants keep their values", "statement": "The constants of a compiled DSDL type are exactly those that its file declares: each has the declared type and the value of its expression, represented in the type (integers within its range, for uint8 also an ASCII character); the names are different and not reserved.", "quantifier": "all files, all expressions, all sets of other types", "why_tests_cant": "Files and expressions are unbounded; a test fixes one file.", "anchors": ["canadensis_dsdl_frontend/src/types/constant.rs: Constant::evaluate, check_type", "canadensis_dsdl_frontend/src/compile.rs: compile_one_inner", "canadensis_dsdl_frontend/src/constants.rs: Constants"]}
{"id": "C84", "title": "Compiling DSDL files gives one type for each, whatever their order", "statement": "If compiling a set of DSDL files succeeds, it gives one type for each file, each being what its own file describes when names of other types stand for these types; no type refers to itself through others. Compiling succeeds whenever such types exist, and the order of the files and of the references between them does not matter.", "quantifier": "all sets of files with different names, all references between them", "why_tests_cant": "The number of files and the graph of references are unbounded.", "anchors": ["canadensis_dsdl_frontend/src/compile.rs: compile, PersistentContext::type_by_key, compile_one"]}
{"id": "C85", "title": "A compiled DSDL type is what its file describes", "statement": "A compiled type has the members that its file declares, in the same order with the same names, element types and array lengths, and is a union, sealed, of an extent, deprecated, or a service exactly as the file says; other types are those with the names in the file.", "quantifier": "all files, all sets of other types", "why_tests_cant": "Files are unbounded sequences of statements.", "anchors": ["canadensis_dsdl_frontend/src/compile.rs: compile_one_inner, FileState, apply_sealed_or_extent, add_field, add_padding_field", "canadensis_dsdl_frontend/src/types.rs: resolve", "canadensis_dsdl_frontend/src/types/directive.rs: evaluate_directive"]}
{"id": "C87", "title": "DSDL files that break the rules are rejected", "statement": "A file that breaks a rule of DSDL does not compile: names of members and constants are different and not reserved, each section has one @sealed or @extent after its members, an extent is a whole number of bytes and not less than the type, @union and @deprecated come before the members, a union has at least two variants and no padding, assertions are true, a type that is not deprecated has no deprecated members, fields are not of void types.", "quantifier": "all files, all sets of other types", "why_tests_cant": "All sequences of statements; tests show single errors.", "anchors": ["canadensis_dsdl_frontend/src/compile.rs: compile_one_inner, check_deprecated_in_non_deprecated, apply_sealed_or_extent, add_field", "canadensis_dsdl_frontend/src/types/directive.rs: evaluate_directive"]}
{"id": "C86", "title": "The lengths that the compiler attributes to types are those that values have", "statement": "The set of bit lengths of a compiled type has exactly the lengths that serialized values of it can have by the rules of DSDL; a field is marked as always aligned exactly if it starts at a byte boundary whatever comes before it; in expressions, _offset_ has the lengths of the members declared so far and T._bit_length_ the lengths of T.", "quantifier": "all sets of files, all types in them, all fields, all places in a file", "why_tests_cant": "The lengths depend on all members of all nested types together, and equality of sets needs both directions for every length.", "anchors": ["canadensis_dsdl_frontend/src/compile.rs: update_struct_length, add_field, add_padding_field, make_union_bit_length, finish, current_offset", "canadensis_dsdl_frontend/src/types.rs: ResolvedType::size, Type::bit_length_set, array_length_bits", "canadensis_dsdl_frontend/src/operators/attribute.rs: evaluate_type_attr"]}
{"id": "C88", "title": "Generated code is code for the types in the DSDL files", "statement": "For every type in DSDL files that compile, code is generated for a type with the same lengths, extent, alignment of fields and width of the variant number as the compiled type. Reading treats missing bytes as zeros. A struct marked as an enum becomes an enum with one variant for each constant, with different values, and each variant is read back after it was written.", "quantifier": "all sets of files, all types in them, all choices of which types are marked as enums, all byte sequences", "why_tests_cant": "Composition of the compiler and the generated code over all files.", "anchors": ["canadensis_codegen_rust/src/lib.rs: generate_rust_type, GeneratedType::new_struct, GeneratedType::new_enum", "canadensis_codegen_rust/src/struct_as_enum.rs: generate_enum_from_struct", "canadensis_dsdl_frontend/src/compiled.rs: Message, Field, Union"]}
{"id": "C89", "title": "Generated Rust names are unique and resolve", "statement": "All Rust types and constants generated for a set of DSDL files have different names or are in different modules. Each module contains exactly the items with its path. The name by which a field refers to another type is the name that this type is generated with, in this crate or in the crate registered for the longest matching part of its package name.", "quantifier": "all sets of files, all registered external packages, all conversions into snake case that keep letters and digits", "why_tests_cant": "Collisions depend on pairs of names among all files, versions and port IDs.", "anchors": ["canadensis_codegen_rust/src/lib.rs: generate_code, external_module, generate_from_dsdl, RustTypeName::for_message_type, ServiceTypeNames::for_service_type, make_rust_identifier", "canadensis_codegen_rust/src/module_tree.rs: ModuleTree::add_item, FromIterator"]}
{"id": "C81", "title": "DSDL expressions have the values that the operators define", "statement": "In DSDL expressions, an operator on numbers gives exactly the sum, product, quotient, remainder, power or bits that are defined; comparisons say what is the case; |, & and ^ of sets are the union, intersection and symmetric difference, == and <= compare sets by their elements, an operator between a set and a number is applied to each element; a set literal has exactly the written elements; min, max and count are the least, the greatest and the number of elements. Operands of the wrong types are errors.", "quantifier": "all values that expressions can have in files that compile, all operators", "why_tests_cant": "Numbers are unbounded rationals, sets have any size and depth.", "anchors": ["canadensis_dsdl_frontend/src/types/expression.rs: evaluate_expression", "canadensis_dsdl_frontend/src/operators/mod.rs: calculate_elementwise_binary, calculate_rational_or_set_binary, calculate_rational_or_set_comparison", "canadensis_dsdl_frontend/src/operators/attribute.rs: evaluate_set_attr", "canadensis_dsdl_frontend/src/types/set.rs: Set"]}
{"id": "C82", "title": "Compiling DSDL files does not panic", "statement": "Compiling any set of DSDL files ends with compiled types or an error, without a panic.", "quantifier": "all sets of parsed files", "why_tests_cant": "Panics hide in rare combinations of operators and values; all files are an unbounded set.", "anchors": ["canadensis_dsdl_frontend/src/compile.rs: compile", "canadensis_dsdl_frontend/src/types/expression.rs: evaluate_expression", "canadensis_dsdl_frontend/src/operators/exponent.rs: rational_exponent", "canadensis_dsdl_frontend/src/types/set.rs: Set::sets_sorted"]}
{"id": "C90", "title": "Parsing a DSDL definition ends without a panic", "statement": "Parsing any text as a DSDL definition comes to an end, with statements or with an error and without a panic.", "quantifier": "all texts, all rules of the grammar", "why_tests_cant": "All texts are an unbounded set; whether matching ends, and whether each unwrap on a piece of the syntax tree is right, depends on the grammar as a whole.", "anchors": ["canadensis_dsdl_parser/src/lib.rs: parse", "canadensis_dsdl_parser/src/dsdl.pest", "canadensis_dsdl_parser/src/ast.rs: parse_statement, parse_expression, parse_literal_real_exponent_notation, parse_digits"]}
{"id": "C91", "title": "The parser gives the statements that the text stands for", "statement": "If a text is parsed as a DSDL definition, then the statements and comments that come out are those the text stands for: operators bind and group as specified, numbers and strings have their values, names and types are the written ones, no statement is lost or added.", "quantifier": "all texts that are parsed", "why_tests_cant": "Ambiguity and precedence concern all combinations of operators at all depths; tests show single expressions.", "anchors": ["canadensis_dsdl_parser/src/dsdl.pest", "canadensis_dsdl_parser/src/ast.rs: parse_statement, parse_expression", "canadensis_dsdl_parser/src/ast/unescape.rs: unescape_string"]}
{"id": "C92", "title": "Every well written DSDL definition is accepted, and in one way", "statement": "Every text that is written as the DSDL grammar specifies is accepted by the parser, which then gives the statements it stands for. No text stands for two different definitions.", "quantifier": "all texts that are written as specified: all statements, operators, types, literals, at any depth", "why_tests_cant": "The grammar is matched by ordered choice without going back, so an alternative that is tried too early can make the parser refuse a valid text far from any tested one.", "anchors": ["canadensis_dsdl_parser/src/dsdl.pest", "canadensis_dsdl_parser/src/lib.rs: parse", "canadensis_dsdl_parser/src/ast.rs: parse_statement, parse_expression"]}
{"id": "C93", "title": "Definitions are read line by line, and comments mean nothing", "statement": "Two texts that are parsed on their own can be put together with an end of line, LF or CR LF, in between, and give the statements of the first and then those of the second. A comment or white space at the end of a text does not change its statements.", "quantifier": "all pairs of texts that are parsed, all comments", "why_tests_cant": "All pairs of texts; matching a text depends on what follows it.", "anchors": ["canadensis_dsdl_parser/src/dsdl.pest", "canadensis_dsdl_parser/src/lib.rs: parse"]}
{"id": "C94", "title": "DSDL file names tell the type", "statement": "A file [port.]Name.major.minor.dsdl (or .uavcan) in a directory defines the type whose namespaces are the directories between, with that port, name and version; every other name of a DSDL file is refused, no name can be read in two ways, and no path below the directory makes it panic.", "quantifier": "all file names and paths, also with parts that are not UTF-8 or with digits of other scripts", "why_tests_cant": "All texts; a pattern with optional parts may match in more than one way.", "anchors": ["canadensis_dsdl_frontend/src/package.rs: parse_file_name, info_from_path"]}
{"id": "C95", "title": "Names of types as text", "statement": "A type name that a package accepts, printed and parsed again, is the same name; different names print differently; a text parses exactly if it is at least one namespace, a name and two numbers up to 255 with dots between them.", "quantifier": "all names and all texts", "why_tests_cant": "All names and texts.", "anchors": ["canadensis_dsdl_frontend/src/type_key.rs: FromStr for TypeKey, FromStr for TypeFullName, Display for TypeKey, Display for TypeFullName"]}
{"id": "C96", "title": "Reserved words", "statement": "A name is refused as a reserved word exactly if it is one of the words that DSDL reserves, or looks like a type with a number of bits, a fixed-point type, com or lpt with a digit, or anything between two underscores, whatever the case of its letters.", "quantifier": "all names", "why_tests_cant": "The patterns stand for infinitely many words.", "anchors": ["canadensis_dsdl_frontend/src/types/keywords.rs: is_reserved_keyword, is_valid_identifier"]}
{"id": "C97", "title": "What a package accepts", "statement": "Whatever calls were made on a package, and whether they failed: the names of its types are valid (in a namespace, identifiers, not reserved, at most 255 characters, version not 0.0) and no two differ only in the case of letters. Adding a file or a text succeeds exactly if this stays so; then the package has this entry and all it had, otherwise it is as before and the call returns an error that names the entry in the way.", "quantifier": "all sequences of calls on a package", "why_tests_cant": "All sequences of calls and all names.", "anchors": ["canadensis_dsdl_frontend/src/package.rs: Package::add_file, Package::add_string, Package::add_files, Package::try_insert, validate_full_key", "canadensis_dsdl_frontend/src/type_key.rs: TypeFullName::len, Ord for TypeKey"]}
{"id": "C98", "title": "Directories of DSDL files", "statement": "Adding a directory succeeds exactly if everything could be read and every DSDL file in it defines a type with a valid name that is new; then exactly these types are added. The order in which the file system lists the files does not matter. If it fails, what was in the package stays, and it does not panic.", "quantifier": "all directories in all orders, all packages before", "why_tests_cant": "The order of a directory is up to the file system; a test sees one order.", "anchors": ["canadensis_dsdl_frontend/src/package.rs: Package::add_files, Package::add_file_from_path, is_dsdl, info_from_path"]}
{"id": "C99", "title": "From a directory to types", "statement": "If a directory is added to a package and compiling it succeeds, there is exactly one type for each DSDL file; its name and port are told by the path of the file, and its fields, constants and layout are described by the statements that the text of the file stands for.", "quantifier": "all directories, all contents of the files", "why_tests_cant": "All texts and directories; this joins package, parser and compiler.", "anchors": ["canadensis_dsdl_frontend/src/package.rs: Package::add_files, Package::compile, DsdlFile::read", "canadensis_dsdl_frontend/src/compile.rs: compile", "canadensis_dsdl_parser/src/lib.rs: parse"]}
{"id": "C100", "title": "A stream of CAN transfers survives losses", "statement": "A node sends transfers of one session (one subject, or one service and destination) one after the other with increasing transfer IDs, and frames may be lost anywhere, as long as of 30 transfers in a row at least one frame arrives. A subscribed receiver then delivers each transfer whose frames all arrive exactly once, in the order of sending, with its header and its payload (zeros after it, cut to the extent), whatever happened to the other transfers; for any other transfer it delivers at most one, never with a header of another, and nothing if no frame arrives. After 30 transfers of which nothing arrives, a transfer may be taken for a repetition.", "quantifier": "all streams of any length, all payloads, all MTUs, all patterns of loss, all times, anything else happening at the receiver in between", "why_tests_cant": "The pattern of losses and the 5-bit transfer ID interact over an unbounded history.", "anchors": ["canadensis_can/src/tx.rs: CanTransmitter::push", "canadensis_can/src/rx.rs: CanReceiver::receive", "canadensis_can/src/rx/session.rs: Session::accept", "canadensis_can/src/types.rs: CanTransferId"]}
{"id": "C101", "title": "From publish to deserialize over CAN", "statement": "A node with an ID publishes values of a DSDL type on a subject, among anything else that it does, without stopping or changing its ID. The frames are sent over a bus that loses any of them, but of 30 messages in a row at least one frame arrives. At a receiver that is subscribed to the subject with a sufficient extent, each value whose frames all arrive is delivered exactly once and in the order of the calls, and deserialize makes an equal value of the delivered payload; for each other value at most one transfer is delivered, and nothing if no frame arrives. (Types and values to which C67 and C68 apply.)", "quantifier": "all programs of the publishing node, all message types and values, all MTUs and patterns of loss, anything else happening at the receiver", "why_tests_cant": "Composition of node, encoder, transmitter, bus, receiver and decoder over an unbounded run.", "anchors": ["canadensis/src/node/core.rs: CoreNode::publish", "canadensis/src/publisher.rs: Publisher::publish", "canadensis/src/serialize.rs: do_serialize", "canadensis_codegen_rust/src/impl_serialize.rs", "canadensis_codegen_rust/src/impl_deserialize.rs", "canadensis_can/src/tx.rs: CanTransmitter::push", "canadensis_can/src/rx.rs: CanReceiver::receive"]}
{"id": "C102", "title": "A stream of transfers over serial", "statement": "Any number of transfers, of any kinds, ports and sources, are sent one after the other over a serial link, and the receiver starts between two frames. In every session in which the transfer IDs increase, the receiver returns exactly the transfers to whose subject or service it is subscribed (and, for requests and responses, that are addressed to it), each once and in the order of sending, with the payload cut to the extent; however the bytes are divided among calls of receive, whenever these calls are, and whatever happens in other sessions. While some bytes have not arrived yet, it has returned the first ones of these.", "quantifier": "all lists of transfers, all divisions of the bytes among calls, all times, all sets of sessions", "why_tests_cant": "the sessions of one stream affect each other only through shared state of the receiver, and tests send a few transfers of one session", "anchors": ["canadensis_serial/src/rx.rs: SerialReceiver::receive, handle_byte, complete_transfer, is_interested, clean_expired_sessions", "canadensis_serial/src/header_collector.rs", "canadensis_serial/src/cobs.rs", "canadensis_serial/src/tx.rs: SerialTransmitter::push"]}
{"id": "C103", "title": "From publish to deserialize over serial", "statement": "A node with an ID publishes values of a DSDL type on a subject, among anything else that it does, without stopping or changing its ID. The transmit queue has room for some of the transfers and not for others, and the serial driver takes the bytes when it can. A receiver that is subscribed to the subject with a sufficient extent returns, of the messages of that node on that subject, exactly one for each published value that got into the queue, in the order of the calls, as far as the bytes have arrived; deserialize makes equal values of the payloads. (Types and values to which C67 and C68 apply.)", "quantifier": "all programs of the publishing node, all message types and values, all queue capacities, all drivers, all interleavings of pushes, flushes and receives", "why_tests_cant": "the result depends on the interplay of the node, the generated serialization, the queue, the framing and the receiver, and each unit test covers one of them", "anchors": ["canadensis/src/publisher.rs: Publisher::publish", "canadensis/src/node/core.rs: CoreNode::publish", "canadensis_serial/src/tx.rs: SerialTransmitter::push, flush", "canadensis_serial/src/rx.rs: SerialReceiver::receive", "canadensis_codegen_rust/src/impl_data_type.rs"]}
{"id": "C104", "title": "Frames in the bxCAN driver", "statement": "Every frame that transmit of the bxCAN driver takes is dropped because its deadline had passed before the call, given back with its ID, data and deadline, sent or aborted, or waits in a mailbox, and only one of these. Only frames whose deadlines have passed are aborted, and after a call of transmit no frame waits whose deadline has passed. There is no panic for frames of at most eight bytes. (A frame may be sent after its deadline if transmit is not called again.)", "quantifier": "all sequences of calls and of events in the controller, all choices of mailboxes, all times", "why_tests_cant": "The controller acts between the calls and chooses mailboxes on its own; tests need hardware.", "anchors": ["canadensis_bxcan/src/lib.rs: BxCanDriver::transmit, transmit_inner, clean_expired_frames, DeadlineTracker"]}
{"id": "C105", "title": "Loopback in the bxCAN driver", "statement": "The copies of frames with the loopback flag that receive returns are in the order of the transmit calls that took the frames, with the IDs and data of these frames and the times of these calls, each at most once; and all of them, if there are never more than two that have not been received.", "quantifier": "all sequences of calls and of events in the controller", "why_tests_cant": "The number of outstanding copies depends on the interleaving of calls.", "anchors": ["canadensis_bxcan/src/lib.rs: BxCanDriver::transmit, receive_loopback, receive"]}
{"id": "C106", "title": "Reception in the bxCAN driver", "statement": "receive returns all extended data frames and all overruns that the controller reports, each once, in their order, with ID, data and the current time. It returns the copy of an own frame, or WouldBlock, only if nothing from the bus waits.", "quantifier": "all sequences of calls and of events in the controller", "why_tests_cant": "Standard and remote frames, overruns and copies may be mixed in any way.", "anchors": ["canadensis_bxcan/src/lib.rs: BxCanDriver::receive, receive_from_bus, bxcan_frame_to_cyphal"]}
{"id": "C107", "title": "Hardware filters let all wanted frames through", "statement": "When the bxCAN or Linux driver applies the filters for the subscriptions of a receiver, it does not panic, and the controller or socket lets every frame through that the receiver would use (it parses, there is a subscription, and it is for everyone or for this node); with a bxCAN controller, for any number of filter banks, and also if memory runs out.", "quantifier": "all histories of subscriptions, all frames, all numbers of filter banks", "why_tests_cant": "Merged filters have to accept every frame of an unbounded set of configurations, and the limits of the hardware matter.", "anchors": ["canadensis_bxcan/src/lib.rs: BxCanDriver::apply_filters", "canadensis_linux/src/lib.rs: LinuxCan::apply_filters", "canadensis_can/src/driver.rs: optimize_filters"]}
{"id": "C108", "title": "Frames in the Linux driver", "statement": "The Linux driver writes to the socket exactly the frames for which transmit returns Ok and whose deadlines have not passed, in the order of the calls; it never gives back another frame, and after WouldBlock or an error nothing has changed. receive returns all extended frames that fit and all errors, each once, in their order, with the current time; WouldBlock means that nothing waits. No call panics for frames of lengths that the socket takes. It never returns copies of own frames.", "quantifier": "all sequences of calls, all behaviours of the socket", "why_tests_cant": "The behaviour of the socket is part of the history; tests need a CAN interface.", "anchors": ["canadensis_linux/src/lib.rs: LinuxCan::transmit, LinuxCan::receive"]}
{"id": "C109", "title": "Frames with one ID reach the bus in order", "statement": "With a queue in front of the bxCAN driver, of the frames with any one CAN ID (such as the frames of a transfer) those that reach the bus do so in the order in which they were pushed, each once, with their data; although more urgent frames displace frames from the mailboxes, these go back into the queue, the controller refuses frames, and frames whose deadlines have passed are dropped. Nothing panics. (For a controller that takes no frame while another one with the same ID waits in a mailbox.)", "quantifier": "all sequences of pushes, flushes and events in the controller, all capacities of the queue, all choices of mailboxes, all times", "why_tests_cant": "The interleaving of flushes with the controller's own actions is unbounded and cannot be forced on hardware.", "anchors": ["canadensis_can/src/queue/mod.rs: SingleQueueDriver, flush_single_queue", "canadensis_can/src/queue/array_queue.rs: ArrayQueue", "canadensis_bxcan/src/lib.rs: BxCanDriver::transmit"]}
{"id": "C110", "title": "A program finds its own checksum in the image that the checksum tool wrote, and the tool does not damage the image", "statement": "If an image has the two checksum variables, in parts that are in the file and do not overlap, the tool writes an image in which the program reads a checksum that is the CRC-64/WE of the image with the checksum as zero, padded to eight bytes; only the nine bytes of the variables change; running the tool again changes nothing. A later change of up to 64 consecutive bits outside of the checksum, or of the checksum alone, makes the checksum wrong. While the tool runs the file always has its old or its new content, whatever fails.", "quantifier": "all images, all places of the variables, all changes within a window of 64 bits, all failures of file operations, all moments", "why_tests_cant": "The images, places and changes are unbounded; an interrupted write cannot be timed in a test.", "anchors": ["canadensis_write_crc/src/main.rs: run, find_symbol_file_offset, clear_crc, write_crc, write_crc_valid, crc_64_we, pad_to_8_bytes", "canadensis_crc/src/lib.rs: get_crc"]}
{"id": "C111", "title": "The subject list of fixed capacity and the generated subject list are interchangeable on the wire", "statement": "A subject list of fixed capacity is written with the same bytes and has the same size as the sparse list of the generated type; bytes that the generated type reads as a sparse list are read as the same subjects if they fit, and as an array length error if they do not; anything else is a union tag error. A list is read back as it was written.", "quantifier": "all lists of subjects, all capacities, all bytes that are read, all buffers", "why_tests_cant": "Two independent implementations must agree on all of infinitely many lists and byte strings.", "anchors": ["canadensis_data_types/src/optimized.rs: SubjectIdList", "canadensis_data_types/src/generated.rs: uavcan::node::port::subject_id_list_1_0"]}
{"id": "C112", "title": "A call over CAN brings the value of the answer back to its request", "statement": "A client sends requests with values of a data type to a server over CAN; the server answers some of those that it receives, with values of the response type, using the token that came with the request. As long as at least one frame arrives of every 30 requests in a row and of the responses to every 30 requests in a row, the server gets each request at most once and the client gets for each request at most one response, in the order of the requests. A request or response of which no frame is lost is delivered and deserialized as an equal value; the response tells the transfer ID that send_request returned, the service and the server. Nothing is delivered for a request that was not answered.", "quantifier": "all programs of the client and the server (with other publications, requests to other nodes and responses to other clients in between), all values, MTUs, losses of frames, and all other traffic at both receivers", "why_tests_cant": "A test makes one call over a perfect bus; here any number of calls interleave with anything else and with any pattern of losses, and transfer IDs repeat.", "anchors": ["canadensis/src/lib.rs: send_request, send_response, ResponseToken", "canadensis/src/node/core.rs: CoreNode", "canadensis/src/requester.rs: Requester::send", "canadensis_can/src/tx.rs: CanTransmitter::push", "canadensis_can/src/rx.rs: CanReceiver::accept", "canadensis_encoding/src/lib.rs: Serialize, Deserialize"]}
{"id": "C113", "title": "The plug-and-play client for bxCAN asks for a node ID and returns the one it is given", "statement": "BxCanPnpClient::publish_request sends an anonymous message with the unique ID onto the CAN bus, at each call. handle_incoming_frames returns a node ID exactly if an allocation message for this unique ID with a valid node ID was received on the CAN bus; messages for other nodes, other frames and lost frames do not matter. No sequence of calls panics.", "quantifier": "all unique IDs, all sequences of calls, frames that arrive, overruns, sent mailboxes, times and failed allocations", "why_tests_cant": "A test on hardware sees one request and one reply; that no request ever leaves the queue and that a second one always panics needs all sequences of calls.", "anchors": ["canadensis_bxcan/src/pnp.rs: BxCanPnpClient", "canadensis_pnp_client/src/lib.rs: PnpClient", "canadensis/src/anonymous.rs: AnonymousPublisher::send", "canadensis_can/src/queue/single_frame_queue.rs: SingleFrameQueue", "canadensis_can/src/queue/mod.rs: SingleQueueDriver", "canadensis_bxcan/src/lib.rs: BxCanDriver"]}
{"id": "C114", "title": "A stream of transfers over UDP survives lost datagrams", "statement": "Of the transfers that a node sends on one subject or service over UDP, with increasing transfer IDs, any datagrams may be lost. The receiver returns exactly the transfers of which no datagram was lost, each once, in the order of their IDs, with the payload that was sent, cut to the extent of the subscription. Whatever else arrives in between does not matter.", "quantifier": "all streams of transfers of any number and length, all subsets of lost datagrams, all other traffic, all MTUs of the sender up to that of the receiver", "why_tests_cant": "A test loses one chosen datagram and looks at one or two following transfers; which transfers are lost, and that a receiver can stay out of step for ever, is about all loss patterns and all lengths of streams.", "anchors": ["canadensis_udp/src/rx.rs: UdpReceiver::receive, Subscription::handle_frame_non_anonymous, UdpSession::handle_frame", "canadensis_udp/src/rx/buildup.rs: Buildup::new, Buildup::push", "canadensis_udp/src/tx.rs: UdpTransmitter::push"]}
{"id": "C115", "title": "A value published over UDP arrives as the same value", "statement": "A node with an ID publishes values of a generated type on a subject over UDP, among other things that it does; datagrams may be lost, be too late, or fail to be sent. A receiver that subscribed to the subject with the extent of the type returns one transfer for each value of which all datagrams arrived, in the order of the calls of publish, and deserialize makes an equal value of each.", "quantifier": "all types, values, programs of the publishing node, socket behaviour, MTUs, sets of lost datagrams, and other traffic", "why_tests_cant": "A test publishes a few values over a working loopback socket; this composes node, serializer, segmentation, network, reassembly and deserializer for all programs and all losses.", "anchors": ["canadensis/src/node/core.rs: CoreNode::publish", "canadensis_udp/src/tx.rs: UdpTransmitter::push", "canadensis_udp/src/rx.rs: UdpReceiver::receive, Subscription::handle_frame_non_anonymous", "canadensis_encoding/src/lib.rs: Serialize, Deserialize"]}
{"id": "C116", "title": "No frame is lost between the queue and the bus unless its deadline has passed", "statement": "With a queue in front of the bxCAN driver, every frame that the queue accepted is afterwards, exactly once, one of: sent on the bus, dropped at a time after its deadline, in a mailbox, in the queue. A frame that a more urgent one displaces from its mailbox is not lost even when the queue is full otherwise. If no deadline passes and queue and mailboxes are empty in the end, the frames with each CAN ID are sent completely and in the order in which they were pushed.", "quantifier": "all sequences of pushes, flushes and events in the controller, all capacities of the queue, all choices of mailboxes, all times", "why_tests_cant": "the frame that is displaced returns to the queue in between the frames pushed later; the loss of one needs a certain interleaving of transmission, displacement and expiry", "anchors": ["canadensis_can/src/queue/mod.rs: SingleQueueDriver, flush_single_queue", "canadensis_can/src/queue/array_queue.rs: ArrayQueue", "canadensis_bxcan/src/lib.rs: BxCanDriver::transmit, clean_expired_frames"]}
{"id": "C117", "title": "A value published by a device with a bxCAN controller arrives as the same value, exactly if push accepted it", "statement": "A node publishes values of a type on a subject; the messages go, among other transfers, through the CAN transmitter, a queue of any size and the bxCAN driver to the bus, while the queue is flushed now and then and the controller refuses and displaces frames. A receiver subscribed to the subject delivers, in order, exactly the values for which push returned Ok, and deserialize makes equal values of them; provided that no deadline passes, nothing waits in the end, the frames on the bus arrive, and of 30 messages in a row push accepts one. If frames are lost (in the device because of deadlines, or on the bus), each value is still delivered at most once and in order, and every value of which no frame is lost is delivered.", "quantifier": "all nodes, types, values, sequences of pushes, flushes and events in the controller, all capacities of the queue, all choices of mailboxes, all calls at the receiver in between", "why_tests_cant": "it is about the composition of all parts, under every interleaving of pushes, flushes, transmissions and displacements", "anchors": ["canadensis/src/publisher.rs: Publisher::send", "canadensis_can/src/tx.rs: CanTransmitter::push", "canadensis_can/src/queue/mod.rs: SingleQueueDriver, flush_single_queue", "canadensis_can/src/queue/array_queue.rs: ArrayQueue", "canadensis_bxcan/src/lib.rs: BxCanDriver::transmit", "canadensis_can/src/rx.rs: CanReceiver::receive", "canadensis_codegen_rust/src/module_tree.rs"]}
{"id": "C118", "title": "A FlexCAN message buffer holds what was written, and its headers compare as frames do on the bus", "statement": "A header written to a message buffer of the S32K146 driver is read back with all fields; data bytes are placed in the order the peripheral uses, read back as written, and touch nothing else. Comparing two headers by transmit priority gives exactly the order of arbitration on the bus: the one that sends a dominant bit at the first difference of ID, RTR/SRR and IDE bits wins, for standard and extended, data and remote frames. A frame that does not fit into the buffer is not accepted.", "quantifier": "all headers, buffers of all sizes in whole words, all data, all pairs of frames", "why_tests_cant": "headers have over 2^60 values and the order ranges over pairs of them; the unit tests compare a few", "anchors": ["examples/s32k146_node/src/flexcan/buffer/header.rs: Header::from_bits, Header::as_bits, Header::compare_transmit_priority", "examples/s32k146_node/src/flexcan/buffer.rs: Message::write_data, Message::read_data, shift_index", "examples/s32k146_node/src/flexcan/mod.rs: FlexCan::send"]}
{"id": "C119", "title": "FlexCAN message buffers never overlap each other, and overlap the receive FIFO exactly as the layout says", "statement": "Message buffers of one size with different numbers take up disjoint memory and none crosses the end of a block of 512 bytes. The receive FIFO with a given number of filters overlaps exactly the buffers for 8 bytes below 6 plus a quarter of the filters (rounded up); the buffer used for sending is free exactly with at most 8 filters.", "quantifier": "all numbers of buffers, all four sizes, all numbers of filters", "why_tests_cant": "the unit tests check a few numbers; the claim is about all", "anchors": ["examples/s32k146_node/src/flexcan/config.rs: message_buffer_space, legacy_fifo_space"]}
{"id": "C120", "title": "The S32K146 driver sends and receives the frames it is given, loses none, and returns", "statement": "transmit takes a frame when the mailbox is free, refuses it (changing nothing) when a frame of equal or higher priority waits, and otherwise replaces the waiting frame and hands that one back unless it went over the bus; every frame taken is sent, handed back or waiting, exactly once. transmit always returns. receive gives every extended data frame on the bus with its ID and data, ignores all other frames, and does not panic.", "quantifier": "all frames, all contents of the mailbox, all sequences of transmissions and completions, all answers of the peripheral, all contents of the receive FIFO", "why_tests_cant": "it depends on what the peripheral does concurrently and on frames sent by other nodes", "anchors": ["examples/s32k146_node/src/flexcan/mod.rs: FlexCan::send, FlexCan::receive", "examples/s32k146_node/src/flexcan/fifo_legacy.rs: LegacyFifo", "examples/s32k146_node/src/main.rs: FlexCanDriver"]}
{"id": "C121", "title": "Warnings about names in DSDL files", "statement": "Compiling with warnings gives the same types or the same failure as compiling without. There is exactly one warning for each name of a package, type, field, variant or constant that is not in the style for it (lowercase with _; letters and digits with _ only at the ends; uppercase words with single _ between), and no other, in whatever order the files are. The name that a warning suggests is in that style, has the same letters and digits, and can be used in place of the name.", "quantifier": "all packages of DSDL files, all names", "why_tests_cant": "Warnings are a set that is filled while files are compiled recursively, in the order of references; whether a name that is not warned about is in the style, or a type is skipped, is a statement about all files.", "anchors": ["canadensis_dsdl_frontend/src/warning.rs: Warnings::check_pre_compile, check_post_compile, check_message, check_field_name, is_permissive_snake_case, is_permissive_upper_camel_case", "canadensis_dsdl_frontend/src/compile.rs: compile_one_inner, PersistentContext::compile", "canadensis_dsdl_frontend/src/package.rs: Package::compile_with_warnings"]}
{"id": "C122", "title": "Names in generated types are different identifiers", "statement": "In the Rust type that is generated for a DSDL type, the names of the fields of a struct, of the variants of an enum for a union, and of the variants of an enum for named constants are different from each other, and each is an identifier of Rust and not a keyword.", "quantifier": "all packages of DSDL files that compile, all types in them", "why_tests_cant": "Names are converted to another style, which can make different names equal; whether it ever does is a statement about all pairs of names.", "anchors": ["canadensis_codegen_rust/src/lib.rs: GeneratedField::data, GeneratedVariant::new, make_rust_identifier", "canadensis_codegen_rust/src/struct_as_enum.rs", "canadensis_dsdl_frontend/src/compile.rs"]}
{"id": "C123", "title": "Constants and extents in generated code have the values of the DSDL file", "statement": "Each constant of a DSDL type appears in the generated code under its name, with a Rust type that can hold its value and a literal that denotes exactly this value. The extent in bytes that is generated times 8 is the extent in bits of the type. The generator does not panic.", "quantifier": "all packages of DSDL files that compile, all constants and extents", "why_tests_cant": "Values are rational numbers without bound that are converted to machine types of different sizes and then to text.", "anchors": ["canadensis_codegen_rust/src/lib.rs: round_up_integer_size", "canadensis_codegen_rust/src/impl_constants.rs: ImplementConstants, PrintLiteral", "canadensis_codegen_rust/src/impl_data_type.rs", "canadensis_dsdl_frontend/src/types/constant.rs"]}
{"id": "C124", "title": "The macro types_from_dsdl generates the types of exactly the packages it names", "statement": "The macro accepts exactly the sequences of package(path), type declarations with inline DSDL, make_external(package, module) and generate(), where a :: may follow the module, generate may have arguments that are ignored, and without generate() nothing is generated. It then generates a type for each DSDL type in the directories and inline declarations before generate() that is not external, in the module of its package, and nothing else. No other input is accepted, and nothing in it makes the macro panic except the compiler or generator.", "quantifier": "all sequences of tokens, environment variables, directories and files", "why_tests_cant": "The language of inputs and the contents of directories are infinite; tests show some inputs.", "anchors": ["canadensis_macro/src/input.rs: Input::parse, parse_statement", "canadensis_macro/src/lib.rs: types_from_dsdl, eval_package_function, eval_make_external_function, eval_generate_function"]}
{"id": "C125", "title": "The program canadensis_generate_code writes the same types as the macro", "statement": "The compile command writes the code that the macro would generate for the same directories and external packages. A value package,module of --external-package is read as the names between dots and between double colons; other values are refused. rustfmt is run exactly if the option --rustfmt is given.", "quantifier": "all directories and options", "why_tests_cant": "Two programs are compared for all inputs.", "anchors": ["canadensis_codegen_rust/src/main.rs: run, get_args, ExternalPackage::parse, validate_external_package"]}
{"id": "C126", "title": "A call over a serial link brings the value of the answer back to its request", "statement": "A client sends requests with values of a data type to a server over a serial link; the server answers some of those that it receives, with values of the response type, using the token that came with the request. As far as the bytes have arrived, the server gets exactly the requests that got into the queue of the client, in order and as equal values, and the client gets exactly the answers that got into the queue of the server, each once, with the transfer ID of its request and as an equal value.", "quantifier": "all programs of the client and the server, all values, capacities of the queues, behaviours of the serial drivers, and all ways to distribute pushes, flushes and reads", "why_tests_cant": "A test makes one call over a perfect link; here any number of calls interleave with anything else, queues overflow, and answers come in any order.", "anchors": ["canadensis/src/lib.rs: send_request, send_response, ResponseToken", "canadensis/src/node/core.rs: CoreNode", "canadensis_serial/src/tx.rs: SerialTransmitter", "canadensis_serial/src/rx.rs: SerialReceiver", "canadensis/src/requester.rs: Requester::send"]}
{"id": "C127", "title": "A call over UDP brings the value of the answer back to its request", "statement": "A client sends requests with values of a data type to a server over UDP; the server answers some of those that it receives, with values of the response type, using the token that came with the request. Any datagrams may be lost. The server gets each request of which all datagrams arrive once, in order, as an equal value, and no other; the client gets each answer of which all datagrams arrive once, with the transfer ID of its request and as an equal value, and no other.", "quantifier": "all programs of the client and the server, all values, MTUs, losses of datagrams, errors of sockets, and other traffic", "why_tests_cant": "A test makes one call over a perfect network; here any number of calls interleave with anything else and with any pattern of losses.", "anchors": ["canadensis/src/lib.rs: send_request, send_response, ResponseToken", "canadensis/src/node/core.rs: CoreNode", "canadensis_udp/src/tx.rs: UdpTransmitter", "canadensis_udp/src/rx.rs: UdpReceiver", "canadensis/src/requester.rs: Requester::send"]}
{"id": "C128", "title": "Every shipped data type has the wire format of its definition", "statement": "For each of the data types that the library ships, the value that a program publishes or sends is put on the wire in exactly the format that the DSDL specification prescribes for the definition given in the documentation of the type; the size that the type announces is right, and serialization does not panic. The code of each type is what the code generator writes for that definition, and the library's own services use these types.", "quantifier": "all 280 shipped types, all values whose numbers fit, all buffers that are large enough", "why_tests_cant": "A test serializes a few values of a few types; the file has 280 types in 20000 lines, checked in, and nothing checks that it is what the generator of the same version writes.", "anchors": ["canadensis_data_types/src/generated.rs", "canadensis_codegen_rust/src/lib.rs", "canadensis_codegen_rust/src/impl_serialize.rs", "canadensis/src/serialize.rs: do_serialize"]}
{"id": "C129", "title": "Every shipped data type is read back as it was sent", "statement": "For each of the data types that the library ships, a value that a program publishes or sends is received as an equal value, whatever padding comes after the payload.", "quantifier": "all 280 shipped types, all values with numbers in range, all following bytes", "why_tests_cant": "A test sends a few values of a few types.", "anchors": ["canadensis_data_types/src/generated.rs", "canadensis_codegen_rust/src/impl_deserialize.rs", "canadensis_encoding/src/lib.rs: Deserialize"]}
{"id": "C130", "title": "Reading a shipped data type from arbitrary bytes does not panic", "statement": "For each of the data types that the library ships and all bytes that another node may send, deserialization returns a value of the type or an error and does not panic; zeros at the end of the bytes that are missing make no difference.", "quantifier": "all 280 shipped types, all byte strings", "why_tests_cant": "A fuzzer samples byte strings of a few types; here all byte strings and all types are covered.", "anchors": ["canadensis_data_types/src/generated.rs", "canadensis_encoding/src/bits.rs: BitArray", "canadensis_encoding/src/cursor/deserialize.rs: ReadCursor"]}
{"id": "C131", "title": "The documented sizes of the shipped data types are right", "statement": "For each of the data types that the library ships, the payload of a value has a number of bytes in the range that the documentation of the type gives, and not more than the extent of the type, which users take for the size of the buffers of subscriptions.", "quantifier": "all 280 shipped types, all values whose numbers fit", "why_tests_cant": "The ranges are comments; no test reads them.", "anchors": ["canadensis_data_types/src/generated.rs", "canadensis_codegen_rust/src/lib.rs: EXTENT_BYTES"]}
{"id": "C132", "title": "The fixed port IDs of the shipped data types are valid", "statement": "Every fixed port ID constant has the value that is written in the file: it is in the range of subject or service IDs, so that nothing is truncated, and in the range for regulated types. Two types of the same kind share an ID only if they are versions of one type. Subjects are in modules with a message, services in modules with a request and a response.", "quantifier": "all fixed port IDs in the shipped file", "why_tests_cant": "A test for one port ID says nothing about the others or about collisions.", "anchors": ["canadensis_data_types/src/generated.rs: SUBJECT, SERVICE", "canadensis_core/src/lib.rs: SubjectId, ServiceId"]}
{"id": "C133", "title": "Generated code does what the text of the DSDL files says", "statement": "If a package of DSDL texts compiles, then for each type: the generated code has one constant for each constant line of the text, in order, with its name and the value of its expression; an enum has one variant per constant with its value; serialize writes the bits that the specification prescribes for the members in the text, and deserialize returns the value again; missing bytes are read as zeros.", "quantifier": "all packages, made by any calls that add texts, files and directories; all types in them; all values and byte strings", "why_tests_cant": "Parser, compiler and generator are tested one by one with a few files each; that what one guarantees is what the next one assumes is not tested at all.", "anchors": ["canadensis_dsdl_parser/src/lib.rs: parse", "canadensis_dsdl_frontend/src/package.rs: Package::compile", "canadensis_codegen_rust/src/lib.rs: generate_code"]}
{"id": "C134", "title": "A comment documents the declaration before it", "statement": "Comments of a DSDL file change nothing in its compiled types. Each comment becomes part of the documentation of the constant, field or variant that is declared last before it in its section, or of the type if nothing is declared before it: the comments of one declaration are joined by line feeds in their order, and no comment is lost or given to something else. (As written, comments after @sealed or @extent of a struct are lost, as are those of a union before its first declaration, those after a use of _offset_ in a union that is a message or request, and those after @sealed or @extent in a union that is a response; which comments are kept is stated exactly.)", "quantifier": "all files with any statements and comments in any order that compile, messages and services, any package state, any compiled types the file refers to", "why_tests_cant": "where a comment goes depends on the state of the compiler after all statements before it; tests use a few files with comments in usual places, and the lost comments do not make anything fail", "anchors": ["canadensis_dsdl_frontend/src/compile.rs: FileState::handle_comment, apply_comment_to_constant_or_field, apply_comment_to_constant_or_variant, FileState::finish", "canadensis_dsdl_frontend/src/compiled.rs: Field::append_comment, Variant::append_comment", "canadensis_dsdl_frontend/src/types/constant.rs: Constant::append_comment"]}
{"id": "C135", "title": "The enum directive", "statement": "The code generator makes an enum from a type of a DSDL text if and only if a comment that starts with [canadensis(enum)] stands before the first declaration of its section and before @union, @sealed and @extent. (The documentation says: before the first field, and that a file that does not meet the requirements is an error. Both fail: after a constant the directive is silently ignored, as it is after @union.)", "quantifier": "all texts that parse and compile, messages, requests and responses, any choice for the other types", "why_tests_cant": "the directive is searched in text that was put together from the comments by the state of the compiler; tests have the directive in the first line of the file only", "anchors": ["canadensis_codegen_rust/src/struct_as_enum.rs: has_enum_directive, generate_enum_from_struct", "canadensis_codegen_rust/src/lib.rs: generate_rust_type", "canadensis_dsdl_frontend/src/compile.rs: FileState::handle_comment"]}
{"id": "C136", "title": "The program that optimizes filters", "statement": "For every command line of the documented form (a number of filters, then at least one 29-bit ID in hexadecimal behind 0x) the program optimize_filters succeeds and prints one line per filter with ID and mask in hexadecimal, as many as allowed and no more than there are IDs, so that hardware configured as printed receives every ID that was asked for; with enough filters each line is exactly one of the IDs. For every other command line it gives an error; it never panics. (False for zero filters: it then succeeds and prints no filter.)", "quantifier": "all command lines, all numbers of IDs and filters", "why_tests_cant": "command lines are arbitrary texts, and the merge of filters depends on all IDs together; no test runs the program", "anchors": ["canadensis_filter_config/bin/optimize_filters.rs: run, get_args, parse_hex_with_prefix, print_filters", "canadensis_filter_config/src/lib.rs: optimize"]}
{"id": "C137", "title": "Reading all registers of a node", "statement": "A client that lists the registers of a node and reads each (the program register_client) and a register server: with answers that are late, lost or in any order, the value that the client has for a name is the content of the register with this name; the server's registers do not change; when the client is done it prints every register once, sorted by name; and it is done when all its requests have been answered. (With more than 32 registers this needs that no answer is lost or late by more than 32 requests: the client tells answers apart by the 5-bit transfer ID only, and otherwise gives a register the value of another one. It accepts answers from any node, and a name that is not UTF-8 ends it with success.)", "quantifier": "all register blocks of fewer than 65535 registers with different valid names, both servers, every order and loss of answers", "why_tests_cant": "the answers can come in any order, and a wrong attribution needs more than 32 registers and a lost frame; the example has no tests", "anchors": ["canadensis/examples/register_client.rs: main, RegisterHandler::handle_response, RegisterHandler::check_if_done", "canadensis/src/register.rs: RegisterHandler", "canadensis/src/requester.rs: Requester::send_request"]}
{"id": "C138", "title": "Bit lengths in 64-bit arithmetic", "statement": "If all lengths of a bit length set, and of the sets it was made from, are below 2^64, then min_value, max_value, expand and is_fixed_size, and for divisors up to 2^32 the remainders and is_aligned, give the exact results in every build, no debug assertion fails and nothing panics. (False above: a type with a field uint64[<=2^58] is accepted by the compiler; with overflow checks max_value and is_aligned of its lengths panic, and without them the type is said to have a fixed size of 64 bits. Remainders by 2^63 + 1 of smaller sets panic, too.)", "quantifier": "all sets made with the interface, all divisors, builds with and without overflow checks and debug assertions", "why_tests_cant": "overflow needs types of 2^64 bits, and no test has them; that no intermediate sum of the remainders overflows depends on all parts", "anchors": ["canadensis_bit_length_set/src/operator.rs: Operator::min, Operator::max, Operator::modulo, Operator::expand, align_up", "canadensis_bit_length_set/src/lib.rs: BitLengthSet::min_value, max_value, is_fixed_size, is_aligned, expand, Rem"]}
{"id": "C139", "title": "The same transfers over several CAN interfaces", "statement": "A node that sends the same frames over several CAN interfaces, a deduplicator in front of a receiver: every transfer whose frames arrive is delivered exactly once and in order. Frames passed on from different interfaces are more than the timeout apart; if no interface is more than the timeout behind another one, every frame is passed on at most once and in order, and every transfer is delivered at most once, and once if all its frames are passed on; and if one interface is never silent for longer than the timeout and receives all frames, every transfer is delivered exactly once, whatever the others receive. (Without these conditions it is false: a transfer of which all interfaces receive all frames is lost if another interface takes over in its middle, and an interface further behind than the timeout leads to a second delivery of everything.)", "quantifier": "all numbers of interfaces, timeouts below half of the clock's range, transfers of any length, orders and losses of frames on each interface, and other traffic in between", "why_tests_cant": "the result depends on the interleaving of several interfaces in time, on the wrap of a 32-bit clock and on 5-bit transfer IDs; the deduplicator has no tests together with a receiver", "anchors": ["canadensis_can/src/redundant/deduplicator.rs: Deduplicator::new, Deduplicator::accept, active_transport_timed_out", "canadensis_can/src/rx.rs: CanReceiver::accept, CanReceiver::accept_frame", "canadensis_can/src/tx.rs: Transmitter::push"]}
{"id": "C140", "title": "A node receives on the ports it uses", "statement": "After any history of calls and received frames, also of calls that fail for lack of memory, subscribers(), servers() and clients() of a node over CAN list exactly the ports that were subscribed or started successfully and not unsubscribed or stopped since; the receiver is subscribed to the responses for every client listed; and every transfer that a handler is given is on a port listed then, and addressed to the node. (The last part fails for responses: after stop_sending_requests the node still receives them, because the receiver keeps its subscription.)", "quantifier": "all histories of calls of a node's functions and of received frames, all ports, failures of the allocator at every call, anonymous nodes and changes of the node ID", "why_tests_cant": "the node and the receiver keep separate tables that have to agree after every order of calls and failures; tests check single calls", "anchors": ["canadensis/src/node/core.rs: CoreNode::start_sending_requests, CoreNode::stop_sending_requests, CoreNode::subscribe_message, CoreNode::unsubscribe_message, CoreNode::subscribe_request, CoreNode::unsubscribe_request, CoreNode::set_node_id, CoreNode::subscribers, CoreNode::servers, CoreNode::clients", "canadensis_can/src/rx.rs: CanReceiver::subscribe, CanReceiver::unsubscribe, CanReceiver::receive"]}
{"id": "C141", "title": "A node over a serial line or UDP receives on the ports it uses", "statement": "After any history of calls and of received bytes or datagrams, also of calls that fail for lack of memory or because of the socket, subscribers(), servers() and clients() of a node over a serial line or over UDP list exactly the ports that were subscribed or started successfully and not unsubscribed or stopped since; the receiver is subscribed to the responses for every client listed; and every transfer that a handler is given is on a port listed then. (The last part fails for responses: after stop_sending_requests the node still receives them, because the receiver keeps its subscription.)", "quantifier": "all histories of calls of a node's functions and of received bytes or datagrams, all ports, failures of the allocator and of the socket at every call, anonymous nodes and changes of the node ID", "why_tests_cant": "the node and the receiver keep separate tables that have to agree after every order of calls and failures; tests check single calls", "anchors": ["canadensis/src/node/core.rs: CoreNode::start_sending_requests, CoreNode::stop_sending_requests, CoreNode::subscribe_message, CoreNode::unsubscribe_message, CoreNode::subscribe_request, CoreNode::unsubscribe_request, CoreNode::set_node_id", "canadensis_core/src/subscription.rs: DynamicSubscriptionManager", "canadensis_serial/src/rx.rs: SerialReceiver", "canadensis_udp/src/rx.rs: UdpReceiver", "canadensis_udp/src/rx/subscriptions.rs: Subscriptions"]}
{"id": "C142", "title": "A node over UDP is a member of the multicast groups it needs and no others", "statement": "While the operations of the socket succeed, after any history of calls and received datagrams the socket of a node over UDP is a member of exactly these multicast groups: that of every subject to which the node is subscribed, and that of its own node ID if it is subscribed to a service or sends requests. (This fails after stop_sending_requests, which does not leave the group, and after set_node_id on a node that has an ID, which neither leaves the group of the former ID nor joins that of the new one.)", "quantifier": "all histories of calls of a node's functions and of received datagrams, all ports and node IDs, nodes that start anonymous and get an ID later", "why_tests_cant": "membership is a state of the operating system that every order of calls has to keep in step with the tables of the receiver; tests do not observe it", "anchors": ["canadensis/src/node/core.rs: CoreNode::start_sending_requests, CoreNode::stop_sending_requests, CoreNode::subscribe_request, CoreNode::unsubscribe_request, CoreNode::set_node_id", "canadensis_udp/src/rx.rs: UdpReceiver::subscribe_message, UdpReceiver::subscribe_request, UdpReceiver::unsubscribe_request, UdpReceiver::set_id", "canadensis_udp/src/address.rs: Address", "canadensis_udp/src/driver.rs: UdpSocket"]}
{"id": "C143", "title": "The FlexCAN receive filters hold what they are to match", "statement": "A FlexCAN filter for one ID holds the format, the RTR bit and every bit of the ID, so that filters for different IDs, formats or RTR bits differ. A filter for two IDs holds for each of them the format, the RTR bit and all 11 bits of a standard ID or, as documented, the 11 most significant bits of an extended ID. A filter for four IDs holds the 8 most significant bits of each, whatever its format. (Filters for two IDs hold 14 bits of extended IDs, so they tell IDs apart that the documentation says match alike.)", "quantifier": "all standard and extended IDs, RTR bits, and combinations of two or four IDs", "why_tests_cant": "2^32 IDs and RTR bits and their combinations; there is no test of the filters", "anchors": ["examples/s32k146_node/src/flexcan/fifo_legacy/filter.rs: FilterA::standard, FilterA::extended, FilterB::two_ids, FilterC::four_ids", "examples/s32k146_node/src/flexcan/id.rs: Id"]}
{"id": "C144", "title": "The FlexCAN driver knows how many message buffers there are", "statement": "For every configuration of the FlexCAN memory (half a block or one to four blocks, each with buffers for 8, 16, 32 or 64 bytes), messages_per_buffer gives for each block the greatest number of buffers that fit and 0 for a block that does not exist, total_messages is what fits into all blocks together, and buffer numbers go on in the next block exactly after that number.", "quantifier": "all configurations of blocks and buffer sizes, all buffer numbers", "why_tests_cant": "tests check a few of the 340 configurations; the documentation itself calls some of the numbers uncertain", "anchors": ["examples/s32k146_node/src/flexcan/blocks.rs: Blocks, HalfBlock, OneBlock, TwoBlocks, ThreeBlocks, FourBlocks, MessageBufferSize", "examples/s32k146_node/src/flexcan/config.rs: message_buffer_space"]}
{"id": "C145", "title": "The checked integers hold only numbers in range, and are read, written and converted without loss", "statement": "Every subject ID, service ID, CAN node ID and CAN transfer ID that a user of the crates can get has a number in its documented range (0..=8191, 0..=511, 0..=127, 0..=31), and every number in the range can be got. Conversion from an integer succeeds exactly in the range and keeps the number; truncating takes the number modulo the size of the range. A text is read as a subject ID exactly if it is a decimal number (with an optional + and leading zeros) up to 8191, and the text written for a subject ID is read as the same ID. A subject or service ID made a port ID can be made the same ID again; a port ID is always accepted as a subject ID, and as a service ID exactly up to 511, whichever it was made from. Incrementing a transfer ID never overflows and gives the next number modulo 32.", "quantifier": "all 8-bit and 16-bit integers, all texts of any length, all IDs that can be obtained by any sequence of calls", "why_tests_cant": "texts are unbounded, and that no sequence of calls gives a number out of range is a statement about all ways to get an ID", "anchors": ["canadensis_core/src/lib.rs: SubjectId, ServiceId, PortId, from_truncating, try_from, from_str, Display", "canadensis_can/src/types.rs: CanNodeId, CanTransferId, from_truncating, try_from, increment"]}
{"id": "C146", "title": "Setting up the FlexCAN peripheral stores the configuration in its registers, and sending uses a buffer of the configuration", "statement": "After the driver is made, each field for the timing in the register CTRL1 holds one less than the prescaler, jump width or segment length asked for, the clock of the peripheral is selected and no other bit of CTRL1 is set; the register FDCTRL holds for each block the code of its configured size of data. Sending uses memory that is within the memory for buffers and is one of the message buffers of the configuration.", "quantifier": "all timings (255 prescalers, all widths and lengths), all configurations of blocks", "why_tests_cant": "the values are packed into shared registers of a peripheral that tests do not have; there are more than 450000 timings", "anchors": ["examples/s32k146_node/src/flexcan/mod.rs: Can::init, send, buffer_blocks_mut", "examples/s32k146_node/src/flexcan/config.rs: StandardTiming, ResyncJumpWidth, SegmentLength, PhaseSegment2Length", "examples/s32k146_node/src/flexcan/blocks.rs: MessageBufferSize::as_bits", "examples/s32k146_node/src/flexcan/svd_generated/generic.rs: FieldWriter::bits"]}
{"id": "C147", "title": "Headers and transfers compare as equal exactly if they are the same, and copies are the same", "statement": "Two headers or two transfers compare as equal exactly if they are of the same kind and agree in timestamp, transfer ID, priority, port, source, destination, loopback flag and payload, provided that node IDs and transfer IDs compare in this way. A copy of a transfer is the same transfer. Setting the priority of a header changes nothing but the priority.", "quantifier": "all headers and transfers over all types of node and transfer IDs, payloads of any length", "why_tests_cant": "the comparisons and copies are written out by hand for each type, and a field left out shows only for two values that differ in that field alone", "anchors": ["canadensis_core/src/transfer.rs: MessageHeader, ServiceHeader, Header, Transfer, eq, clone, set_priority"]}
