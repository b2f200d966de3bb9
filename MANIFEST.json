{
 "claims": [
  {
   "property": "C01",
   "status": "proved",
   "theorems": [
    "Verif.Crc.C01_crc16_residue_zero_iff"
   ],
   "note": ""
  },
  {
   "property": "C02",
   "status": "proved",
   "theorems": [
    "Verif.Crc.C02_tracker_correct_iff",
    "Verif.Crc.C02_tracker_split"
   ],
   "note": ""
  },
  {
   "property": "C03",
   "status": "proved",
   "theorems": [
    "Verif.Crc.C03_crc16_detects_bursts",
    "Verif.Crc.C03_crc16_corrupt_rejected",
    "Verif.Crc.C03_crc32c_detects_bursts",
    "Verif.Crc.C03_crc32c_corrupt_rejected"
   ],
   "note": ""
  },
  {
   "property": "C21",
   "status": "partial",
   "theorems": [
    "Verif.FilterConfig.C21_optimize_bounded_superset_partial",
    "Verif.FilterConfig.C21_optimize_zero",
    "Verif.FilterConfig.C21_merge_step_picks_best_pair",
    "Verif.FilterConfig.C21_merge_is_tightest",
    "Verif.FilterConfig.C21_optimize_reuse_counterexample"
   ],
   "note": "Reusing a non-empty output buffer loses filters; the counterexample theorem exhibits it and the partial theorem covers the empty-buffer calls the driver makes."
  },
  {
   "property": "C27",
   "status": "proved",
   "theorems": [
    "Verif.Cobs.C27_escape_fits_and_has_no_zero",
    "Verif.Cobs.C27_escape_succeeds_iff"
   ],
   "note": ""
  },
  {
   "property": "C28",
   "status": "partial",
   "theorems": [
    "Verif.Cobs.C28_cobs_roundtrip_iff_partial",
    "Verif.Cobs.C28_cobs_roundtrip_short_partial",
    "Verif.Cobs.C28_cobs_roundtrip_counterexample",
    "Verif.Cobs.C28_cobs_decode_sublist"
   ],
   "note": "The code drops a zero that follows a run of 254 non-zero bytes; the partial theorem characterises exactly the inputs that round trip."
  },
  {
   "property": "C04",
   "status": "proved",
   "theorems": [
    "Verif.Can.C04_make_can_id_layout",
    "Verif.Can.C04_parse_iff",
    "Verif.Can.C04_parse_rejects_iff",
    "Verif.Can.C04_can_id_roundtrip"
   ],
   "note": ""
  },
  {
   "property": "C08",
   "status": "partial",
   "theorems": [
    "Verif.Can.C08_release_never_panics",
    "Verif.Can.C08_release_receive_never_panics",
    "Verif.Can.C08_debug_no_panic_partial",
    "Verif.Can.C08_debug_panic_counterexample"
   ],
   "note": "Proved without hypotheses for release builds; checked builds panic on a two-frame transfer with fewer than two bytes, shown by the counterexample."
  },
  {
   "property": "C09",
   "status": "proved",
   "theorems": [
    "Verif.Can.C09_duplicates_suppressed"
   ],
   "note": ""
  },
  {
   "property": "C10",
   "status": "proved",
   "theorems": [
    "Verif.Can.C10_session_independence",
    "Verif.Can.C10_sessions_do_not_interfere"
   ],
   "note": ""
  },
  {
   "property": "C11",
   "status": "proved",
   "theorems": [
    "Verif.Can.C11_only_subscribed_and_addressed",
    "Verif.Can.C11_nothing_after_unsubscribe"
   ],
   "note": ""
  },
  {
   "property": "C12",
   "status": "partial",
   "theorems": [
    "Verif.Can.C12_extent_respected_partial",
    "Verif.Can.C12_anonymous_counterexample",
    "Verif.Can.C12_anonymous_whole_frame"
   ],
   "note": "Anonymous messages are returned whole, whatever the extent; the counterexample shows it."
  },
  {
   "property": "C13",
   "status": "proved",
   "theorems": [
    "Verif.Can.C13_multi_frame_integrity"
   ],
   "note": ""
  },
  {
   "property": "C14",
   "status": "partial",
   "theorems": [
    "Verif.Can.C14_single_frame_delivered_iff",
    "Verif.Can.C14_start_frame_opens_session_partial",
    "Verif.Can.C14_stale_session_counterexample"
   ],
   "note": "A half-received transfer with the same transfer ID is never dropped on timeout and makes the receiver ignore a new start frame."
  },
  {
   "property": "C15",
   "status": "proved",
   "theorems": [
    "Verif.Can.C15_subscription_table"
   ],
   "note": ""
  },
  {
   "property": "C20",
   "status": "partial",
   "theorems": [
    "Verif.Can.C20_filter_is_exact",
    "Verif.Can.C20_filters_no_false_negatives",
    "Verif.Can.C20_delivered_frames_pass_filters",
    "Verif.Can.C20_set_id_counterexample"
   ],
   "note": "Holds for the filters computed from the current configuration; set_id does not reapply filters, which the counterexample shows."
  },
  {
   "property": "C05",
   "status": "proved",
   "theorems": [
    "Verif.Can.C05_segmentation"
   ],
   "note": ""
  },
  {
   "property": "C17",
   "status": "proved",
   "theorems": [
    "Verif.Can.C17_array_queue_is_priority_queue",
    "Verif.Can.C17_pops_in_priority_order",
    "Verif.Can.C17_single_frame_queue"
   ],
   "note": ""
  },
  {
   "property": "C18",
   "status": "proved",
   "theorems": [
    "Verif.Can.C18_array_queue_reservation",
    "Verif.Can.C18_single_frame_queue_reservation"
   ],
   "note": ""
  },
  {
   "property": "C07",
   "status": "proved",
   "theorems": [
    "Verif.Can.C07_push_all_or_nothing",
    "Verif.Can.C07_push_single_frame_queue"
   ],
   "note": ""
  },
  {
   "property": "C19",
   "status": "partial",
   "theorems": [
    "Verif.Can.C19_flush",
    "Verif.Can.C19_no_frame_lost_partial",
    "Verif.Can.C19_flush_keeps_order",
    "Verif.Can.C19_error_loses_frame_counterexample"
   ],
   "note": "A frame on which the driver fails with an error other than WouldBlock is lost; the counterexample shows it."
  },
  {
   "property": "C22",
   "status": "proved",
   "theorems": [
    "Verif.Can.C22_deduplicator",
    "Verif.Can.C22_timeout_passed"
   ],
   "note": ""
  },
  {
   "property": "C23",
   "status": "proved",
   "theorems": [
    "Verif.Can.C23_reserve",
    "Verif.Can.C23_frames_offered_to_both",
    "Verif.Can.C23_symmetric",
    "Verif.Can.C23_flush",
    "Verif.Can.C23_push_two_queues"
   ],
   "note": ""
  },
  {
   "property": "C24",
   "status": "partial",
   "theorems": [
    "Verif.Can.C24_complete_or_absent_partial",
    "Verif.Can.C24_partial_list_counterexample"
   ],
   "note": "The first application after there was no list stores a partial list when memory runs out; the counterexample shows it."
  },
  {
   "property": "C16",
   "status": "proved",
   "theorems": [
    "Verif.Can.C16_transfer_ids_count_per_destination"
   ],
   "note": ""
  },
  {
   "property": "C06",
   "status": "proved",
   "theorems": [
    "Verif.Can.C06_can_round_trip",
    "Verif.Can.C06_can_round_trip_anonymous"
   ],
   "note": ""
  },
  {
   "property": "C25",
   "status": "proved",
   "theorems": [
    "Verif.Hdr.C25_checksum_valid",
    "Verif.Hdr.C25_header_roundtrip",
    "Verif.Hdr.C25_core_roundtrip",
    "Verif.Hdr.C25_decode_accepts_iff",
    "Verif.Hdr.C25_decode_describes",
    "Verif.Hdr.C25_encode_describes",
    "Verif.Hdr.C25_large_index_counterexample"
   ],
   "note": ""
  },
  {
   "property": "C26",
   "status": "proved",
   "theorems": [
    "Verif.Hdr.C26_corruption_detected"
   ],
   "note": ""
  },
  {
   "property": "C29",
   "status": "partial",
   "theorems": [
    "Verif.Serial.C29_serial_roundtrip_partial",
    "Verif.Serial.C29_serial_roundtrip_short_partial",
    "Verif.Serial.C29_push_flush_receive_partial",
    "Verif.Serial.C29_roundtrip_counterexample"
   ],
   "note": "False for frames with a zero after a full run of 254 non-zero bytes (COBS decoder drops it); proved for all others and for every payload up to 226 bytes."
  },
  {
   "property": "C30",
   "status": "proved",
   "theorems": [
    "Verif.Serial.C30_serial_ids_increase"
   ],
   "note": ""
  },
  {
   "property": "C31",
   "status": "partial",
   "theorems": [
    "Verif.Serial.C31_serial_resync_partial",
    "Verif.Serial.C31_ready_after_delimiter",
    "Verif.Serial.C31_second_frame_received_partial",
    "Verif.Serial.C31_lost_frame_counterexample"
   ],
   "note": "False when the receiver is inside a frame header: the leading delimiter of the next frame only gets it to Idle and that frame is lost."
  },
  {
   "property": "C32",
   "status": "proved",
   "theorems": [
    "Verif.Serial.C32_push_all_or_nothing",
    "Verif.Serial.C32_flush_in_order",
    "Verif.Serial.C32_stream_in_order"
   ],
   "note": ""
  },
  {
   "property": "C62",
   "status": "proved",
   "theorems": [
    "Verif.Serial.C62_serial_receiver_never_panics",
    "Verif.Serial.C62_serial_receive_never_panics",
    "Verif.Serial.receive_eq_exec"
   ],
   "note": ""
  },
  {
   "property": "C63",
   "status": "proved",
   "theorems": [
    "Verif.Serial.C63_serial_integrity"
   ],
   "note": ""
  },
  {
   "property": "C33",
   "status": "proved",
   "theorems": [
    "Verif.Udp.C33_segmentation",
    "Verif.Udp.C33_count",
    "Verif.Udp.C33_single_iff"
   ],
   "note": ""
  },
  {
   "property": "C34",
   "status": "partial",
   "theorems": [
    "Verif.Udp.C34_roundtrip_partial",
    "Verif.Udp.C34_anonymous",
    "Verif.Udp.C34_short_tail_lost",
    "Verif.Udp.C34_counterexample",
    "Verif.Udp.C34_next_lost_counterexample",
    "Verif.Udp.receive_run"
   ],
   "note": "False when a transfer of several datagrams has 1 to 3 bytes in the last one: the receiver drops datagrams with fewer than 4 bytes after the header. Proved for every other length; for these lengths it is proved that the transfer is always lost."
  },
  {
   "property": "C35",
   "status": "partial",
   "theorems": [
    "Verif.Udp.C35_destination_partial",
    "Verif.Udp.C35_counterexample"
   ],
   "note": "The receiver does not look at the destination. Proved for a socket that only gets datagrams sent to groups it has joined, without changes of the node ID."
  },
  {
   "property": "C36",
   "status": "partial",
   "theorems": [
    "Verif.Udp.C36_recorded_suppressed_partial",
    "Verif.Udp.C36_no_duplicates_partial",
    "Verif.Udp.C36_duplicate_counterexample"
   ],
   "note": "False after an incomplete transfer: the transfer ID recorded is that of the incomplete one. Proved for histories of whole transfers in any order."
  },
  {
   "property": "C37",
   "status": "partial",
   "theorems": [
    "Verif.Udp.C37_no_panic_partial",
    "Verif.Udp.receive_panic",
    "Verif.Udp.C37_counterexample"
   ],
   "note": "Panics when a frame arrives more than 2^31 microseconds after the last transfer of the session; proved for all histories within this time."
  },
  {
   "property": "C38",
   "status": "partial",
   "theorems": [
    "Verif.Udp.C38_integrity_partial",
    "Verif.Udp.C38_counterexample"
   ],
   "note": "The first datagram of the run need not have index 0; everything else is proved."
  },
  {
   "property": "C39",
   "status": "proved",
   "theorems": [
    "Verif.Udp.C39_node_address",
    "Verif.Udp.C39_subject_address",
    "Verif.Udp.C39_injective",
    "Verif.Udp.C39_parse_iff",
    "Verif.Udp.C39_range"
   ],
   "note": ""
  },
  {
   "property": "C40",
   "status": "proved",
   "theorems": [
    "Verif.Udp.C40_groups_follow_subscriptions",
    "Verif.Udp.C40_set_id_counterexample"
   ],
   "note": "Histories without set_id, as the property says; the counterexample shows what a change of the node ID does."
  },
  {
   "property": "C41",
   "status": "proved",
   "theorems": [
    "Verif.Enc.C41_roundtrip"
   ],
   "note": "Floating point fields are their bit patterns."
  },
  {
   "property": "C42",
   "status": "proved",
   "theorems": [
    "Verif.Enc.C42_read_total",
    "Verif.Enc.C42_zero_extension",
    "Verif.Enc.C42_read_aligned_u8"
   ],
   "note": "The aligned reading functions panic exactly on a misaligned cursor, as documented."
  },
  {
   "property": "C43",
   "status": "proved",
   "theorems": [
    "Verif.Enc.C43_write",
    "Verif.Enc.C43_layout"
   ],
   "note": ""
  },
  {
   "property": "C44",
   "status": "proved",
   "theorems": [
    "Verif.Enc.C44_read",
    "Verif.Enc.C44_write_fits",
    "Verif.Enc.C44_roundtrip",
    "Verif.Enc.C44_versions"
   ],
   "note": "Inner readers are arbitrary functions; inner writers are arbitrary functions that write the promised number of bits."
  },
  {
   "property": "C45",
   "status": "partial",
   "theorems": [
    "Verif.Enc.C45_serialize",
    "Verif.Enc.C45_deserialize_bits",
    "Verif.Enc.C45_roundtrip_partial",
    "Verif.Enc.C45_counterexample"
   ],
   "note": "The code violates the property for a length that is a multiple of 8 and below the capacity, at a byte boundary: reading advances by the capacity. Proved for every other case."
  },
  {
   "property": "C46",
   "status": "partial",
   "theorems": [
    "Verif.Enc.C46_aligned_bytes_partial",
    "Verif.Enc.C46_aligned_integers",
    "Verif.Enc.C46_counterexample"
   ],
   "note": "The code violates the property: write_aligned_bytes does not check the alignment. Proved for aligned cursors, and for the aligned integer functions."
  },
  {
   "property": "C47",
   "status": "proved",
   "theorems": [
    "Verif.Enc.C47_get",
    "Verif.Enc.C47_set",
    "Verif.Enc.C47_new_fill",
    "Verif.Enc.C47_eq",
    "Verif.Enc.C47_compare",
    "Verif.Enc.C47_total_order"
   ],
   "note": ""
  },
  {
   "property": "C48",
   "status": "proved",
   "theorems": [
    "Verif.Bls.C48_expand",
    "Verif.Bls.C48_min_max",
    "Verif.Bls.C48_fixed_size"
   ],
   "note": "Lengths are unbounded numbers; the u64 arithmetic of the code agrees as long as the greatest length fits."
  },
  {
   "property": "C49",
   "status": "partial",
   "theorems": [
    "Verif.Bls.C49_modulo_partial",
    "Verif.Bls.C49_is_aligned_partial",
    "Verif.Bls.C49_is_byte_aligned",
    "Verif.Bls.C49_remainders_valid",
    "Verif.Bls.C49_counterexample"
   ],
   "note": "The code violates the property for a padding to an alignment that neither divides the divisor nor is divided by it. Proved for every other expression; the reduction of repetition counts is exact."
  },
  {
   "property": "C50",
   "status": "proved",
   "theorems": [
    "Verif.Bls.C50_eq",
    "Verif.Bls.C50_cmp",
    "Verif.Bls.C50_total_order"
   ],
   "note": ""
  },
  {
   "property": "C51",
   "status": "proved",
   "theorems": [
    "Verif.Node.C51_transfer_ids",
    "Verif.Node.C51_publish",
    "Verif.Node.C51_id_values"
   ],
   "note": ""
  },
  {
   "property": "C52",
   "status": "proved",
   "theorems": [
    "Verif.Node.C52_transfer_ids",
    "Verif.Node.C52_send",
    "Verif.Node.C52_trackers",
    "Verif.Node.C52_full_table"
   ],
   "note": ""
  },
  {
   "property": "C53",
   "status": "proved",
   "theorems": [
    "Verif.Node.C53_response",
    "Verif.Node.C53_delivery",
    "Verif.Node.C53_outcome"
   ],
   "note": ""
  },
  {
   "property": "C60",
   "status": "proved",
   "theorems": [
    "Verif.Node.C60_chain",
    "Verif.Node.C60_associative"
   ],
   "note": ""
  },
  {
   "property": "C64",
   "status": "proved",
   "theorems": [
    "Verif.Node.C64_payload"
   ],
   "note": ""
  },
  {
   "property": "C65",
   "status": "proved",
   "theorems": [
    "Verif.Node.C65_publishers",
    "Verif.Node.C65_clients",
    "Verif.Node.C65_node_id"
   ],
   "note": ""
  },
  {
   "property": "C66",
   "status": "proved",
   "theorems": [
    "Verif.Node.C66_anonymous"
   ],
   "note": ""
  },
  {
   "property": "C67",
   "status": "partial",
   "theorems": [
    "Verif.Dsdl.C67_wire_format_partial",
    "Verif.Dsdl.C67_size_partial",
    "Verif.Dsdl.C67_payload_partial",
    "Verif.Dsdl.C67_counterexample_array_of_delimited",
    "Verif.Dsdl.C67_counterexample_union_of_delimited",
    "Verif.Dsdl.C67_counterexample_gap",
    "Verif.Dsdl.C67_counterexample_zero_copy",
    "Verif.Dsdl.C67_counterexample_empty_array",
    "Verif.Dsdl.C67_counterexample_saturated",
    "Verif.Dsdl.C67_counterexample_tag",
    "Verif.Dsdl.C67_counterexample_too_long"
   ],
   "note": "The code violates the property for some types and values, shown by the counterexamples. Proved for all types and values that `good` and `fits` do not exclude, at any depth."
  },
  {
   "property": "C68",
   "status": "partial",
   "theorems": [
    "Verif.Dsdl.C68_round_trip_partial",
    "Verif.Dsdl.C68_round_trip_end_partial",
    "Verif.Dsdl.C68_counterexample_sign",
    "Verif.Dsdl.C68_counterexample_padding",
    "Verif.Dsdl.C68_counterexample_bits"
   ],
   "note": "The code violates the property for negative integers of widths other than 8, 16, 32, 64, for sealed composites that end with padding, and for some bit arrays, if something comes after them. Proved for all other types and values that C67 covers."
  },
  {
   "property": "C69",
   "status": "partial",
   "theorems": [
    "Verif.Dsdl.C69_no_panic_partial",
    "Verif.Dsdl.C69_counterexample",
    "Verif.Dsdl.C69_counterexample_too_long",
    "Verif.Dsdl.C69_counterexample_length"
   ],
   "note": "The code violates the property for bit arrays of variable length: a length field greater than the capacity panics. Proved for all other types."
  },
  {
   "property": "C70",
   "status": "proved",
   "theorems": [
    "Verif.Dsdl.C70_zero_extension"
   ],
   "note": ""
  },
  {
   "property": "C71",
   "status": "partial",
   "theorems": [
    "Verif.Dsdl.C71_lengths_partial",
    "Verif.Dsdl.C71_counterexample"
   ],
   "note": "The code violates the property for arrays of delimited composites and for unions with variable-length arrays or delimited composites. Proved for the other types that C67 covers."
  },
  {
   "property": "C54",
   "status": "partial",
   "theorems": [
    "Verif.App.C54_minimal_partial",
    "Verif.App.C54_service_partial",
    "Verif.App.C54_basic_partial",
    "Verif.App.C54_counterexample_health"
   ],
   "note": "Proved for MinimalNode, HeartbeatService and BasicNode, for every history, if the health is less than 4 and the mode less than 8. Health and Mode have public fields; greater values are truncated, shown by the counterexample."
  },
  {
   "property": "C55",
   "status": "partial",
   "theorems": [
    "Verif.App.C55_accuracy_partial",
    "Verif.App.C55_period_partial",
    "Verif.App.C55_in_use",
    "Verif.App.C55_counterexample_handlers",
    "Verif.App.C55_counterexample_earlier",
    "Verif.App.C55_counterexample_delay"
   ],
   "note": "The code violates the property if transfer handlers start or stop ports, if ports were in use before the basic node was made, and for calls whose heartbeat is not sent. Proved for all other histories, with any number of ports."
  },
  {
   "property": "C56",
   "status": "partial",
   "theorems": [
    "Verif.App.C56_list_partial",
    "Verif.App.C56_panics"
   ],
   "note": "The code violates the property: with more than 255 publishers or message subscriptions it always panics. Proved otherwise, with the content of the message."
  },
  {
   "property": "C72",
   "status": "proved",
   "theorems": [
    "Verif.App.C72_delivery",
    "Verif.App.C72_answer",
    "Verif.App.C72_answers",
    "Verif.App.C72_new"
   ],
   "note": ""
  },
  {
   "property": "C73",
   "status": "proved",
   "theorems": [
    "Verif.App.C73_transparent"
   ],
   "note": ""
  },
  {
   "property": "C57",
   "status": "partial",
   "theorems": [
    "Verif.Pnp.C57_static_partial",
    "Verif.Pnp.C57_unique_partial",
    "Verif.Pnp.C57_same_partial",
    "Verif.Pnp.C57_exchange_partial",
    "Verif.Pnp.C57_counterexample_unique",
    "Verif.Pnp.C57_counterexample_zero",
    "Verif.Pnp.C57_counterexample_in_use",
    "Verif.Pnp.C57_counterexample_same",
    "Verif.Pnp.C57_counterexample_assigned"
   ],
   "note": "The code violates the property whenever the server chooses an ID itself. Proved for all histories in which every node ID comes from assign; C57_counterexample_zero shows that otherwise every client gets the ID 0."
  },
  {
   "property": "C58",
   "status": "partial",
   "theorems": [
    "Verif.Pnp.C58_service_partial",
    "Verif.Pnp.C58_free_partial",
    "Verif.Pnp.C58_reply",
    "Verif.Pnp.C58_can_ids",
    "Verif.Pnp.C58_header_ids",
    "Verif.Pnp.C58_counterexample_subject",
    "Verif.Pnp.C58_counterexample_anonymous",
    "Verif.Pnp.C58_counterexample_request"
   ],
   "note": "The unique ID and the validity of the ID are proved for both clients and both versions; the code checks neither the subject nor the source, and a version 2 client adopts the ID 0 from a request with its unique ID."
  },
  {
   "property": "C74",
   "status": "partial",
   "theorems": [
    "Verif.Pnp.C74_allocation_partial",
    "Verif.Pnp.C74_other_partial",
    "Verif.Pnp.C74_heartbeat_partial",
    "Verif.Pnp.C74_subscriptions",
    "Verif.Pnp.C74_counterexample_heartbeat",
    "Verif.Pnp.C74_counterexample_assign",
    "Verif.Pnp.C74_counterexample_reply"
   ],
   "note": "The code violates two parts: the server answers replies as if they were requests, and panics for the greatest node ID. The rest is proved for all states and messages."
  },
  {
   "property": "C75",
   "status": "partial",
   "theorems": [
    "Verif.Pnp.C75_service",
    "Verif.Pnp.C75_free_partial",
    "Verif.Pnp.C75_free_new",
    "Verif.Pnp.C75_counterexample_busy",
    "Verif.Pnp.C75_counterexample_classic",
    "Verif.Pnp.C75_counterexample_extent",
    "Verif.Pnp.C75_counterexample_cut"
   ],
   "note": "The content of the requests is proved for both clients and both versions. PnpClient panics if the transmitter is busy, PnpClientService::new panics in a debug build on Classic CAN, and PnpClient subscribes with an extent that cuts version 2 replies."
  },
  {
   "property": "C59",
   "status": "partial",
   "theorems": [
    "Verif.Reg.C59_access",
    "Verif.Reg.C59_unknown",
    "Verif.Reg.C59_malformed",
    "Verif.Reg.C59_constant",
    "Verif.Reg.C59_validated_partial",
    "Verif.Reg.C59_store",
    "Verif.Reg.C59_store_run",
    "Verif.Reg.C59_counterexample_set_value",
    "Verif.Reg.C59_counterexample_long"
   ],
   "note": "The code violates one part: the program can put a value that the validator rejects into a validated register with set_value or value_mut. Proved for all requests and writes. Also shown: an array with more numbers than fit in a value says that it is mutable but never takes a value."
  },
  {
   "property": "C76",
   "status": "partial",
   "theorems": [
    "Verif.Reg.C76_list_partial",
    "Verif.Reg.C76_enumerate_partial",
    "Verif.Reg.C76_counterexample_name",
    "Verif.Reg.C76_counterexample_empty"
   ],
   "note": "The code violates the property for a name of 256 bytes, which FixedStringRegister::new and the documentation allow: a list request panics. Proved for all implementations of Register with names of at most 255 bytes; the enumeration for names that are not empty and at most 65535 registers."
  },
  {
   "property": "C77",
   "status": "partial",
   "theorems": [
    "Verif.Reg.C77_request_partial",
    "Verif.Reg.C77_run_partial",
    "Verif.Reg.C77_counterexample_bits",
    "Verif.Reg.C77_counterexample_bools",
    "Verif.Reg.C77_counterexample_anonymous"
   ],
   "note": "The code violates the property: a request of five bytes that announces 2049 bits makes every register server panic. Proved for all other requests, for the library's registers that can be read, with names of at most 255 bytes, on a node with an ID."
  },
  {
   "property": "C78",
   "status": "proved",
   "theorems": [
    "Verif.Reg.C78_request",
    "Verif.Reg.C78_response",
    "Verif.Reg.C78_exchange",
    "Verif.Reg.C78_subscribe_handler",
    "Verif.Reg.C78_subscribe_service"
   ],
   "note": "The whole exchange is proved for blocks of registers without validators; the two directions for all values."
  },
  {
   "property": "C79",
   "status": "partial",
   "theorems": [
    "Verif.Reg.C79_same",
    "Verif.Reg.C79_same_any",
    "Verif.Reg.C79_counterexample"
   ],
   "note": "The code violates the property for a register of the user's for which a write of the empty value does something: RegisterServerService writes it on every read. Proved for all registers of the library, and for all implementations that ignore empty values."
  },
  {
   "property": "C61",
   "status": "proved",
   "theorems": [
    "Verif.Ses.C61_dynamic",
    "Verif.Ses.C61_linear",
    "Verif.Ses.C61_array",
    "Verif.Ses.C61_array_panics",
    "Verif.Ses.C61_same"
   ],
   "note": "A SessionArray panics if it has too few slots, as documented. SessionLinearMap and SessionArray have no constructor in /repo; the theorems start with empty ones."
  },
  {
   "property": "C80",
   "status": "proved",
   "theorems": [
    "Verif.Pnp.C80_determined",
    "Verif.Pnp.C80_crc16",
    "Verif.Pnp.C80_crc32c",
    "Verif.Pnp.C80_crc64we",
    "Verif.Pnp.C80_hash"
   ],
   "note": "Polynomials over ZMod 2 from Mathlib."
  },
  {
   "property": "C83",
   "status": "proved",
   "theorems": [
    "Verif.Front.C83_constants",
    "Verif.Front.C83_declared"
   ],
   "note": "Rounding to floating-point numbers and the list of reserved words are any functions."
  },
  {
   "property": "C84",
   "status": "partial",
   "theorems": [
    "Verif.Front.C84_order",
    "Verif.Front.C84_closed",
    "Verif.Front.C84_complete_partial",
    "Verif.Front.C84_any_order_partial",
    "Verif.Front.C84_depth",
    "Verif.Front.C84_counterexample_case",
    "Verif.Front.C84_counterexample_right_case"
   ],
   "note": "The code violates one part: a reference in the wrong case is accepted or rejected depending on the order of the files. Success and independence of the order are proved for references in the case of the file names; the rest for all files."
  },
  {
   "property": "C85",
   "status": "proved",
   "theorems": [
    "Verif.Front.C85_file",
    "Verif.Front.C85_all"
   ],
   "note": "From parsed statements; the parser is not modelled. The value of `_offset_` in expressions is left open here."
  },
  {
   "property": "C86",
   "status": "partial",
   "theorems": [
    "Verif.Front.C86_lengths_partial",
    "Verif.Front.C86_alignment_partial",
    "Verif.Front.C86_offset_partial",
    "Verif.Front.C86_attribute_partial",
    "Verif.Front.C86_counterexample_union",
    "Verif.Front.C86_counterexample_delimited",
    "Verif.Front.C86_counterexample_request",
    "Verif.Front.C86_counterexample_attribute"
   ],
   "note": "The code violates it for members of delimited types, arrays of variable length in unions, unions of 2^8, 2^16 or 2^32 variants, requests (not rounded up to bytes) and _bit_length_ of arrays of variable length. Proved as an equivalence for all other types, at any depth."
  },
  {
   "property": "C87",
   "status": "partial",
   "theorems": [
    "Verif.Front.C87_messages_partial",
    "Verif.Front.C87_statements",
    "Verif.Front.C87_counterexample_extent",
    "Verif.Front.C87_counterexample_void",
    "Verif.Front.C87_counterexample_same_name",
    "Verif.Front.C87_counterexample_reserved",
    "Verif.Front.C87_counterexample_empty_array"
   ],
   "note": "The code violates several rules, as the counterexamples show; the others are proved for all files."
  },
  {
   "property": "C88",
   "status": "partial",
   "theorems": [
    "Verif.Front.C88_agrees",
    "Verif.Front.C88_zero_extension",
    "Verif.Front.C88_enum",
    "Verif.Front.C88_enum_generated",
    "Verif.Front.C88_members",
    "Verif.Front.C88_counterexample_enum"
   ],
   "note": "The code violates one part: the generator panics for an enum constant of 2^32 or more. The rest is proved for all files. Data fields of void types, which the compiler accepts, are left out."
  },
  {
   "property": "C89",
   "status": "partial",
   "theorems": [
    "Verif.Front.C89_external",
    "Verif.Front.C89_modules",
    "Verif.Front.C89_unique_partial",
    "Verif.Front.C89_unique_names_partial",
    "Verif.Front.C89_references",
    "Verif.Front.C89_across_partial",
    "Verif.Front.C89_counterexample_subject",
    "Verif.Front.C89_counterexample_underscore",
    "Verif.Front.C89_counterexample_test",
    "Verif.Front.C89_counterexample_across"
   ],
   "note": "The code violates uniqueness for types with fixed ports and names that are the same in snake case, for packages named _, and for the generated tests of services. Proved for all other files. The conversion into snake case (crate heck) is a parameter that keeps letters and digits; C89_unique_names_partial uses a model of it."
  },
  {
   "property": "C81",
   "status": "partial",
   "theorems": [
    "Verif.Front.C81_numbers",
    "Verif.Front.C81_number_comparisons",
    "Verif.Front.C81_others",
    "Verif.Front.C81_set_operations_partial",
    "Verif.Front.C81_set_comparisons_partial",
    "Verif.Front.C81_elementwise_partial",
    "Verif.Front.C81_elementwise_left",
    "Verif.Front.C81_proper",
    "Verif.Front.C81_literal",
    "Verif.Front.C81_count_partial",
    "Verif.Front.C81_min_max_numbers",
    "Verif.Front.C81_min_max_texts",
    "Verif.Front.C81_no_attribute",
    "Verif.Front.C81_counterexample_mixed",
    "Verif.Front.C81_counterexample_nested",
    "Verif.Front.C81_counterexample_remainder",
    "Verif.Front.C81_counterexample_order"
   ],
   "note": "The code violates it for | & ^ between a set of lengths and a set of numbers, for sets of lengths inside of sets, and for remainders of sets of lengths by numbers that are not powers of two. min and max of sets of sets, whose sort has no valid order, are left out. The rest is proved for all values."
  },
  {
   "property": "C82",
   "status": "partial",
   "theorems": [
    "Verif.Front.C82_numbers",
    "Verif.Front.C82_operators",
    "Verif.Front.C82_no_panic_partial",
    "Verif.Front.C82_counterexample_divide",
    "Verif.Front.C82_counterexample_modulo",
    "Verif.Front.C82_counterexample_offset",
    "Verif.Front.C82_counterexample_exponent",
    "Verif.Front.C82_counterexample_array",
    "Verif.Front.C82_counterexample_sort"
   ],
   "note": "The code violates it: a division by zero or a negative power of zero in a file makes the compiler panic. Proved for all files whose divisors and exponents are written so that this cannot happen. Overflow of u64 in lengths is the subject of C138."
  },
  {
   "property": "C90",
   "status": "partial",
   "theorems": [
    "Verif.Parse.C90_matching_ends",
    "Verif.Parse.C90_no_panic_partial",
    "Verif.Parse.C90_no_panic_short",
    "Verif.Parse.C90_counterexample_exponent"
   ],
   "note": "The code violates it: an exponent of 2^128 panics (num-bigint). Proved for all texts without a number of 2^128 or more. Memory and stack are unlimited in the model."
  },
  {
   "property": "C91",
   "status": "partial",
   "theorems": [
    "Verif.Parse.C91_reads_partial",
    "Verif.Parse.C91_reads_exact",
    "Verif.Parse.C91_counterexample_fraction",
    "Verif.Parse.C91_counterexample_escape"
   ],
   "note": "The code violates it for 0.1_5 and for strings with a Unicode escape such as u+041; proved for all other texts, and for all texts with the rules that the code follows there."
  },
  {
   "property": "C92",
   "status": "partial",
   "theorems": [
    "Verif.Parse.C92_accepts_partial",
    "Verif.Parse.C92_accepts_exactly",
    "Verif.Parse.C92_unambiguous",
    "Verif.Parse.C92_counterexample_name",
    "Verif.Parse.C92_counterexample_point",
    "Verif.Parse.C92_counterexample_attribute"
   ],
   "note": "The code violates the property: names that begin with bool, byte, utf8, true, false or a type such as uint8 cannot be used in expressions, .5 is refused, and 1.min is refused. Proved otherwise; the exact set of accepted texts is proved, too, and that no text stands for two definitions."
  },
  {
   "property": "C93",
   "status": "proved",
   "theorems": [
    "Verif.Parse.C93_join",
    "Verif.Parse.C93_comment",
    "Verif.Parse.C93_space"
   ],
   "note": ""
  },
  {
   "property": "C94",
   "status": "proved",
   "theorems": [
    "Verif.Pkg.C94_file_name",
    "Verif.Pkg.C94_unambiguous",
    "Verif.Pkg.C94_path",
    "Verif.Pkg.C94_no_panic"
   ],
   "note": ""
  },
  {
   "property": "C95",
   "status": "proved",
   "theorems": [
    "Verif.Pkg.C95_reads",
    "Verif.Pkg.C95_round_trip",
    "Verif.Pkg.C95_injective",
    "Verif.Pkg.C95_counterexample_unchecked"
   ],
   "note": "Parsing a name does not check that a package would accept it (C95_counterexample_unchecked); the property does not ask for it."
  },
  {
   "property": "C96",
   "status": "proved",
   "theorems": [
    "Verif.Pkg.C96_reserved",
    "Verif.Pkg.C96_identifier",
    "Verif.Pkg.C96_case"
   ],
   "note": ""
  },
  {
   "property": "C97",
   "status": "proved",
   "theorems": [
    "Verif.Pkg.C97_valid",
    "Verif.Pkg.C97_add_string",
    "Verif.Pkg.C97_add_file",
    "Verif.Pkg.C97_duplicate",
    "Verif.Pkg.C97_errors"
   ],
   "note": ""
  },
  {
   "property": "C98",
   "status": "proved",
   "theorems": [
    "Verif.Pkg.C98_which",
    "Verif.Pkg.C98_accepts",
    "Verif.Pkg.C98_adds",
    "Verif.Pkg.C98_error",
    "Verif.Pkg.C98_error_says",
    "Verif.Pkg.C98_any_order",
    "Verif.Pkg.C98_no_panic",
    "Verif.Pkg.C98_counterexample_error"
   ],
   "note": "After an error, how much of the directory is in the package depends on the order (C98_counterexample_error); the property does not ask for more."
  },
  {
   "property": "C99",
   "status": "proved",
   "theorems": [
    "Verif.Pkg.C99_package",
    "Verif.Pkg.C99_directory"
   ],
   "note": ""
  },
  {
   "property": "C100",
   "status": "proved",
   "theorems": [
    "Verif.Can.C100_stream",
    "Verif.Can.C100_frames",
    "Verif.Can.C100_no_loss",
    "Verif.Can.C100_limit"
   ],
   "note": "C100_limit shows that the bound of 30 cannot be weakened to 31"
  },
  {
   "property": "C101",
   "status": "partial",
   "theorems": [
    "Verif.End.C101_can_partial"
   ],
   "note": "composes C51, C64, C67, C05, C100 and C68; the types and values that C67 and C68 exclude are excluded here too"
  },
  {
   "property": "C102",
   "status": "partial",
   "theorems": [
    "Verif.Serial.C102_serial_stream_partial",
    "Verif.Serial.C102_serial_stream_short",
    "Verif.Serial.C102_serial_prefix_partial"
   ],
   "note": "without conditions for payloads of at most 226 bytes; longer ones must not have a zero after a full run of 254 non-zero bytes (C28), and no bytes are lost (C31)"
  },
  {
   "property": "C103",
   "status": "partial",
   "theorems": [
    "Verif.End.C103_serial_partial"
   ],
   "note": "composes C51, C64, C67, C32, C102 and C68; excluded are the types and values that C67 and C68 exclude, and frame data with a zero after a full run of non-zero bytes (C28)"
  },
  {
   "property": "C104",
   "status": "proved",
   "theorems": [
    "Verif.Drv.C104_nothing_lost",
    "Verif.Drv.C104_aborts_are_late",
    "Verif.Drv.C104_none_late_after_transmit",
    "Verif.Drv.C104_long_frame_panics",
    "Verif.Drv.C104_late_frame_counterexample"
   ],
   "note": "that no frame is ever sent after its deadline is false (C104_late_frame_counterexample); the property does not ask for it"
  },
  {
   "property": "C105",
   "status": "partial",
   "theorems": [
    "Verif.Drv.C105_loopback_partial",
    "Verif.Drv.C105_loopback_all",
    "Verif.Drv.C105_third_copy_counterexample",
    "Verif.Drv.C105_not_sent_counterexample"
   ],
   "note": "the documentation of Frame promises a copy of each frame, with the time when it was sent; a third copy is dropped, and there are copies of frames that are never sent"
  },
  {
   "property": "C106",
   "status": "proved",
   "theorems": [
    "Verif.Drv.C106_all_received",
    "Verif.Drv.C106_receive"
   ],
   "note": ""
  },
  {
   "property": "C107",
   "status": "partial",
   "theorems": [
    "Verif.Drv.C107_bxcan",
    "Verif.Drv.C107_linux_partial",
    "Verif.Drv.C107_linux_counterexample"
   ],
   "note": "The code violates it on Linux: with more than 512 subscriptions, the limit of a socket, the driver panics. Proved otherwise."
  },
  {
   "property": "C108",
   "status": "proved",
   "theorems": [
    "Verif.Drv.C108_linux",
    "Verif.Drv.C108_receive",
    "Verif.Drv.C108_transmit",
    "Verif.Drv.C108_no_loopback"
   ],
   "note": "the documentation of Frame promises copies of frames with the loopback flag; there are none"
  },
  {
   "property": "C109",
   "status": "proved",
   "theorems": [
    "Verif.Drv.C109_order",
    "Verif.Drv.C109_controller_counterexample"
   ],
   "note": "C109_controller_counterexample shows that the assumption on the controller is needed"
  },
  {
   "property": "C110",
   "status": "partial",
   "theorems": [
    "Verif.Tool.C110_correct",
    "Verif.Tool.C110_only_if",
    "Verif.Tool.C110_twice",
    "Verif.Tool.C110_detects",
    "Verif.Tool.C110_replaces",
    "Verif.Tool.C110_tmp_counterexample",
    "Verif.Tool.C110_other_file_counterexample",
    "Verif.Tool.C110_length_counterexample"
   ],
   "note": "proved for files with another extension than tmp; a file with the extension tmp is written in place and can be lost, an existing file with that extension is overwritten, and added zeros up to a multiple of eight bytes are not detected"
  },
  {
   "property": "C111",
   "status": "partial",
   "theorems": [
    "Verif.Dsdl.C111_same_bytes",
    "Verif.Dsdl.C111_reads_same",
    "Verif.Dsdl.C111_round_trip_partial",
    "Verif.Dsdl.C111_counterexample"
   ],
   "note": "same bytes and round trip for up to 255 subjects, reading for all bytes and capacities; a longer list, which the capacity allows since the check of the capacity is never evaluated, is not read back"
  },
  {
   "property": "C112",
   "status": "partial",
   "theorems": [
    "Verif.End.C112_call_partial"
   ],
   "note": "From send_request at the client to deserialize at the server and from send_response back to deserialize at the client, over a bus that loses frames, for all programs of both and all other traffic. Missing: the types and values that C67 and C68 exclude (Sendable)."
  },
  {
   "property": "C113",
   "status": "partial",
   "theorems": [
    "Verif.Drv.C113_first_partial",
    "Verif.Drv.C113_received_partial",
    "Verif.Drv.C113_no_panic_partial",
    "Verif.Drv.C113_never_sent_counterexample",
    "Verif.Drv.C113_second_panics_counterexample"
   ],
   "note": "What is received is handled as stated, and the first call prepares the right frame; but no frame is ever given to the controller, because nothing flushes the queue of the client, and the second call of publish_request always panics. Without panic: builds without overflow checks and at most one request."
  },
  {
   "property": "C114",
   "status": "partial",
   "theorems": [
    "Verif.Udp.C114_stream_partial",
    "Verif.Udp.C114_whole_partial",
    "Verif.Udp.C114_forever_counterexample"
   ],
   "note": "Whatever is lost, only transfers of which nothing is lost are returned, in order, once and with the right payload (if no remainder of a transfer ends with its own CRC by chance), and those that are certain are characterised; with transfers that arrive as a whole or not at all, exactly those that arrive. Violated otherwise: after the loss of one datagram of a transfer of two, no following transfer of two datagrams is ever returned. Only for lengths at which the CRC is not split (C34)."
  },
  {
   "property": "C115",
   "status": "partial",
   "theorems": [
    "Verif.End.C115_udp_partial",
    "Verif.End.C115_udp_whole_partial"
   ],
   "note": "From publish to deserialize over a socket that may fail and a network that loses any datagrams. Missing: values whose datagrams all arrive but that the receiver loses because it is out of step (C114), the types and values that C67 and C68 exclude (Sendable), and lengths at which the CRC is split (TailFits, C34)."
  },
  {
   "property": "C116",
   "status": "proved",
   "theorems": [
    "Verif.Drv.C116_nothing_lost",
    "Verif.Drv.C116_all_sent"
   ],
   "note": "C116_nothing_lost holds for every controller; C116_all_sent, which is about the order too, needs the assumption on the controller of C109"
  },
  {
   "property": "C117",
   "status": "partial",
   "theorems": [
    "Verif.End.C117_delivered_partial",
    "Verif.End.C117_lossy_partial"
   ],
   "note": "From publish through the transmitter, the queue and the controller to deserialize. Missing: the types and values that C67 and C68 exclude (Sendable). In C117_lossy_partial the division of what arrives into messages is existential: the frames themselves do not tell it when transfer IDs repeat."
  },
  {
   "property": "C118",
   "status": "partial",
   "theorems": [
    "Verif.Flex.C118_header",
    "Verif.Flex.C118_data",
    "Verif.Flex.C118_priority",
    "Verif.Flex.C118_long_frame_counterexample"
   ],
   "note": "Headers, data and the order of arbitration are as stated. Missing: send accepts frames of more than 8 bytes and drops the rest (counterexample)"
  },
  {
   "property": "C119",
   "status": "proved",
   "theorems": [
    "Verif.Flex.C119_disjoint",
    "Verif.Flex.C119_fifo",
    "Verif.Flex.C119_send_buffer"
   ],
   "note": ""
  },
  {
   "property": "C120",
   "status": "partial",
   "theorems": [
    "Verif.Flex.C120_transmit",
    "Verif.Flex.C120_replace_partial",
    "Verif.Flex.C120_ledger_partial",
    "Verif.Flex.C120_receive_partial",
    "Verif.Flex.C120_standard",
    "Verif.Flex.C120_waits_forever_counterexample",
    "Verif.Flex.C120_does_not_wait_counterexample",
    "Verif.Flex.C120_length_code_counterexample",
    "Verif.Flex.C120_remote_counterexample"
   ],
   "note": "The loop that waits for an abort is inverted: it never ends once the flag is set, and otherwise does not wait. receive panics for length codes 9 to 15 and turns remote frames into data frames. What the flag and the code in the buffer are is environment"
  },
  {
   "property": "C121",
   "status": "partial",
   "theorems": [
    "Verif.Front.C121_types",
    "Verif.Front.C121_exact",
    "Verif.Front.C121_silent",
    "Verif.Front.C121_suggestions",
    "Verif.Front.C121_any_order_partial",
    "Verif.Front.C121_same_suggestion_counterexample",
    "Verif.Front.C121_no_name_counterexample",
    "Verif.Front.C121_reserved_counterexample"
   ],
   "note": "Which warnings there are is proved for all files. The suggested name is in the style that is asked for, but it can be the one of another constant, a reserved word, or not a name. The order of the files does not matter if types are referred to in the case of their names (else the result itself depends on the order, C84). Warnings up to an error are not modelled; the conversions of the crate heck are modelled from its documentation"
  },
  {
   "property": "C122",
   "status": "partial",
   "theorems": [
    "Verif.Front.C122_fields_partial",
    "Verif.Front.C122_variants_partial",
    "Verif.Front.C122_enum_partial",
    "Verif.Front.C122_same_variant_counterexample",
    "Verif.Front.C122_identifier_counterexample"
   ],
   "note": "Fields of structs are different if none is _, and identifiers if none is a keyword of Rust. Variants are different identifiers if the names are words of letters and digits, each beginning with a letter, joined by _, and not self. Without these conditions names can become equal (a1 and a_1) or be no identifiers, without a warning"
  },
  {
   "property": "C123",
   "status": "partial",
   "theorems": [
    "Verif.Front.C123_constants",
    "Verif.Front.C123_extent_partial",
    "Verif.Front.C123_extent_counterexample",
    "Verif.Front.C123_float16_counterexample"
   ],
   "note": "Integer, bool and character constants keep their value; floating-point ones the value the compiler rounds to. Extents of 4 GiB and more panic. float16 constants are rounded twice, so they are not always the nearest float16. ConstantWidths says that constants are of types the parser gives (1 to 64 bits); C133 proves that it does"
  },
  {
   "property": "C124",
   "status": "proved",
   "theorems": [
    "Verif.Macro.C124_language",
    "Verif.Macro.C124_unambiguous",
    "Verif.Macro.C124_types",
    "Verif.Macro.C124_only",
    "Verif.Macro.C124_panic"
   ],
   "note": "The language is as the code reads it: make_external accepts a trailing ::, generate ignores its arguments, and an input without generate() yields nothing. A panic of the macro is always one of the DSDL compiler or the generator (C82, C123). Texts and places of error messages are not modelled"
  },
  {
   "property": "C125",
   "status": "partial",
   "theorems": [
    "Verif.Macro.C125_same_as_macro_partial",
    "Verif.Macro.C125_option_value",
    "Verif.Macro.C125_external_counterexample",
    "Verif.Macro.C125_value_counterexample",
    "Verif.Macro.C125_rustfmt_counterexample"
   ],
   "note": "Proved without --external-package. With that option the program always panics, because the value is read with another type than it was parsed with. rustfmt is run also without --rustfmt. A second comma is ignored. The behaviour of the crate clap is from its documentation"
  },
  {
   "property": "C126",
   "status": "partial",
   "theorems": [
    "Verif.End.C126_call_partial",
    "Verif.End.C126_order_counterexample"
   ],
   "note": "Proved if the server answers in the order of the requests; answers to older requests are dropped by the client. The types and values that C67 and C68 exclude and frame data that COBS damages (C28) are excluded"
  },
  {
   "property": "C127",
   "status": "partial",
   "theorems": [
    "Verif.End.C127_call_partial",
    "Verif.End.C127_order_counterexample"
   ],
   "note": "Proved if the server answers in the order of the requests; answers to older requests are dropped by the client. After a loss only the transfers that are certain by C114 are certainly delivered. The types and values that C67 and C68 exclude, and lengths at which the CRC is split (C34), are excluded; requests to other nodes of the same client are assumed not to arrive (C35)"
  },
  {
   "property": "C128",
   "status": "proved",
   "theorems": [
    "Verif.Shipped.C128_up_to_date",
    "Verif.Shipped.C128_wire_format",
    "Verif.Shipped.C128_size",
    "Verif.Shipped.C128_payload",
    "Verif.Shipped.C128_used"
   ],
   "note": "For all 280 types. The table of types is transcribed from the file by a script; Lean checks that the generator writes the same code for the definitions"
  },
  {
   "property": "C129",
   "status": "partial",
   "theorems": [
    "Verif.Shipped.C129_round_trip_partial",
    "Verif.Shipped.C129_safe_partial",
    "Verif.Shipped.C129_counterexample_classic",
    "Verif.Shipped.C129_counterexample_can",
    "Verif.Shipped.C129_counterexample_udp"
   ],
   "note": "Proved for 274 of 280 types. The code violates the property for the other six (metatransport frames of CAN and UDP): padding at the end of a sealed type is not skipped"
  },
  {
   "property": "C130",
   "status": "partial",
   "theorems": [
    "Verif.Shipped.C130_no_panic_partial",
    "Verif.Shipped.C130_zero_extension",
    "Verif.Shipped.C130_counterexample"
   ],
   "note": "Proved for 276 of 280 types. The code violates the property for the other four: a bit array longer than 2048 bits panics"
  },
  {
   "property": "C131",
   "status": "proved",
   "theorems": [
    "Verif.Shipped.C131_sizes"
   ],
   "note": "For all 280 types"
  },
  {
   "property": "C132",
   "status": "proved",
   "theorems": [
    "Verif.Shipped.C132_port_ids",
    "Verif.Shipped.C132_kinds"
   ],
   "note": "For all constants"
  },
  {
   "property": "C133",
   "status": "partial",
   "theorems": [
    "Verif.Pkg.C133_constants",
    "Verif.Pkg.C133_enum",
    "Verif.Pkg.C133_bytes_partial",
    "Verif.Pkg.C133_zero_extension"
   ],
   "note": "Constants, enums and zero extension are proved for all packages that compile (enums and zero extension for texts shorter than 2^64 characters). For bytes the types and values that C67 and C68 exclude are missing. What C88 and C123 assume of files (widths from 1 to 64) is proved for all texts that the parser reads."
  },
  {
   "property": "C134",
   "status": "partial",
   "theorems": [
    "Verif.Docs.C134_same",
    "Verif.Docs.C134_documents",
    "Verif.Docs.C134_documents_partial",
    "Verif.Docs.C134_sealed_counterexample",
    "Verif.Docs.C134_union_counterexample",
    "Verif.Docs.C134_offset_counterexample"
   ],
   "note": "C134_documents says exactly, for all files that compile, which comments each declaration has; the claim that none is lost fails, with three counterexamples, and holds for sections whose comments are in the usual places (C134_documents_partial)."
  },
  {
   "property": "C135",
   "status": "partial",
   "theorems": [
    "Verif.Docs.C135_enum",
    "Verif.Docs.C135_constant_counterexample",
    "Verif.Docs.C135_union_counterexample"
   ],
   "note": "C135_enum is the exact condition for all texts that parse and compile. What the documentation says of the directive fails after a constant and after @union."
  },
  {
   "property": "C136",
   "status": "partial",
   "theorems": [
    "Verif.Tool.C136_prints_partial",
    "Verif.Tool.C136_accepts",
    "Verif.Tool.C136_zero_counterexample"
   ],
   "note": "C136_accepts is the exact set of accepted command lines. C136_prints_partial excludes zero filters, for which the claim is false."
  },
  {
   "property": "C137",
   "status": "partial",
   "theorems": [
    "Verif.Reg.C137_reads_partial",
    "Verif.Reg.C137_lost_counterexample",
    "Verif.Reg.C137_source_counterexample",
    "Verif.Reg.C137_utf8_counterexample"
   ],
   "note": "For up to 32 registers every order and loss of answers; for more with the assumption that no unanswered request is overtaken by 32 others, without which C137_lost_counterexample shows a wrong value. One client, one node; transfer IDs of requests are counted as proved in C52."
  },
  {
   "property": "C138",
   "status": "partial",
   "theorems": [
    "Verif.Bls.C138_exact_partial",
    "Verif.Bls.C138_modulo_partial",
    "Verif.Bls.C138_overflow_counterexample",
    "Verif.Bls.C138_divisor_counterexample",
    "Verif.Front.C138_type_counterexample"
   ],
   "note": "Exact in every build if all lengths and the lengths of all parts fit into u64, and divisors are at most 2^32. Above this the code panics or gives wrong lengths: counterexamples."
  },
  {
   "property": "C139",
   "status": "partial",
   "theorems": [
    "Verif.Can.C139_apart",
    "Verif.Can.C139_once_partial",
    "Verif.Can.C139_active_partial",
    "Verif.Can.C139_takeover_counterexample",
    "Verif.Can.C139_lag_counterexample"
   ],
   "note": "At most once and in order if no interface is more than the timeout behind; exactly once if one interface is never silent for longer than the timeout. Without these conditions the claim is false: counterexamples. As in C100, of 30 transfers in a row at least one frame is passed on."
  },
  {
   "property": "C140",
   "status": "partial",
   "theorems": [
    "Verif.End.C140_ports",
    "Verif.End.C140_delivered_partial",
    "Verif.End.C140_stop_counterexample"
   ],
   "note": "The lists are exact for all histories. What handlers are given is on a port in use, but for responses after stop_sending_requests: counterexample."
  },
  {
   "property": "C141",
   "status": "partial",
   "theorems": [
    "Verif.End.C141_serial_ports",
    "Verif.End.C141_udp_ports",
    "Verif.End.C141_serial_delivered_partial",
    "Verif.End.C141_udp_delivered_partial",
    "Verif.End.C141_serial_stop_counterexample",
    "Verif.End.C141_udp_stop_counterexample"
   ],
   "note": "The lists are exact for all histories. What handlers are given is on a port in use, but for responses after stop_sending_requests: counterexamples."
  },
  {
   "property": "C142",
   "status": "partial",
   "theorems": [
    "Verif.End.C142_groups_partial",
    "Verif.End.C142_stop_counterexample",
    "Verif.End.C142_set_id_counterexample"
   ],
   "note": "Exact for all histories in which the socket works and an ID is set only while there is none; for clients that stopped and for changed IDs there are counterexamples."
  },
  {
   "property": "C143",
   "status": "partial",
   "theorems": [
    "Verif.Flex.C143_exact",
    "Verif.Flex.C143_two_ids_partial",
    "Verif.Flex.C143_two_ids_counterexample",
    "Verif.Flex.C143_four_ids"
   ],
   "note": "Filters for two IDs hold 14 bits of an extended ID, not the 11 of the documentation. The rest is proved for all IDs. How the peripheral compares a filter is not in the repository."
  },
  {
   "property": "C144",
   "status": "proved",
   "theorems": [
    "Verif.Flex.C144_messages",
    "Verif.Flex.C144_numbers"
   ],
   "note": "For all configurations."
  },
  {
   "property": "C145",
   "status": "proved",
   "theorems": [
    "Verif.Ids.C145_range",
    "Verif.Ids.C145_integers",
    "Verif.Ids.C145_text",
    "Verif.Ids.C145_ports",
    "Verif.Ids.C145_increment",
    "Verif.Ids.C145_kind_lost",
    "Verif.Ids.C145_bit_vectors"
   ],
   "note": "For all integers, texts and obtainable IDs. Reading and writing of u16 are those of std. C145_kind_lost shows that a port ID does not tell a service from a subject. C145_bit_vectors connects these IDs with the bit vectors of the rest of the model."
  },
  {
   "property": "C146",
   "status": "partial",
   "theorems": [
    "Verif.Flex.C146_timing",
    "Verif.Flex.C146_sizes",
    "Verif.Flex.C146_send_partial",
    "Verif.Flex.C146_send_counterexample"
   ],
   "note": "The registers hold the configuration for all timings and blocks. Sending uses a message buffer exactly if the first block has buffers for 8 bytes; for other configurations there is a counterexample."
  },
  {
   "property": "C147",
   "status": "proved",
   "theorems": [
    "Verif.C147_equal",
    "Verif.C147_equal_of_kind",
    "Verif.C147_clone",
    "Verif.C147_priority"
   ],
   "note": "For all types of IDs with a comparison that is exact."
  }
 ]
}