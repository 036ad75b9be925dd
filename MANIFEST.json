{
 "claims": [
  {
   "property": "C01",
   "status": "proved",
   "theorems": [
    "Neutron.Props.C01_frame_roundtrip"
   ],
   "note": "All commands, metadata and payloads whose frame is below 2^32 bytes (C08 covers the rest)."
  },
  {
   "property": "C02",
   "status": "proved",
   "theorems": [
    "Neutron.Props.C02_chunking_safety",
    "Neutron.Props.C02_chunking_complete"
   ],
   "note": "Safety for every chunking; completeness once all bytes have been read. Frames are those the decoder accepts (IsFrame)."
  },
  {
   "property": "C03",
   "status": "proved",
   "theorems": [
    "Neutron.Props.C03_prefix_untouched",
    "Neutron.Props.C03_own_frames"
   ],
   "note": ""
  },
  {
   "property": "C04",
   "status": "proved",
   "theorems": [
    "Neutron.Props.C04_layout"
   ],
   "note": ""
  },
  {
   "property": "C05",
   "status": "proved",
   "theorems": [
    "Neutron.Props.C05_checksum",
    "Neutron.Props.C05_is_crc32c",
    "Neutron.Props.C05_word_of_polynomial",
    "Neutron.Props.C05_burst_detected"
   ],
   "note": "Checksum equals CRC-32C specified independently as a remainder in GF(2)[x] (RFC 3720); any change within 4 consecutive bytes changes it."
  },
  {
   "property": "C06",
   "status": "partial",
   "theorems": [
    "Neutron.Props.C06_checksum_ignored",
    "Neutron.Props.C06_refuted",
    "Neutron.Props.C06_detectable_partial"
   ],
   "note": "False of the code: the decoder never compares the checksum (C06_checksum_ignored for every frame, C06_refuted concrete). Proved instead: a receiver that did compare would notice every corruption of up to four consecutive bytes."
  },
  {
   "property": "C07",
   "status": "partial",
   "theorems": [
    "Neutron.Props.C07_refuted",
    "Neutron.Props.C72_panic_iff",
    "Neutron.Props.C72_wellformed",
    "Neutron.Props.C72_frames_readable"
   ],
   "note": "False of the code: a complete frame with malformed contents panics (C07_refuted). The true core is C72."
  },
  {
   "property": "C08",
   "status": "partial",
   "theorems": [
    "Neutron.Props.C08_refuted",
    "Neutron.Props.C73_release",
    "Neutron.Props.C73_debug",
    "Neutron.Props.C73_fits"
   ],
   "note": "False of the code in release builds: size fields wrap (C08_refuted). The true core is C73."
  },
  {
   "property": "C09",
   "status": "proved",
   "theorems": [
    "Neutron.Props.C09_protobuf_roundtrip",
    "Neutron.Props.C09_unknown_fields",
    "Neutron.Props.C09_parsed_wellTyped"
   ],
   "note": "Unknown fields: varint, 64-bit, length-delimited and 32-bit wire types. Deprecated protobuf groups are rejected by the model's parser (simplification, no message type in pulsar.proto uses them)."
  },
  {
   "property": "C10",
   "status": "proved",
   "theorems": [
    "Neutron.Props.C10_encoder_never_panics",
    "Neutron.Props.C10_what_fits",
    "Neutron.Props.C10_empty_ack_panics"
   ],
   "note": ""
  },
  {
   "property": "C11",
   "status": "proved",
   "theorems": [
    "Neutron.Props.C11_batch_roundtrip"
   ],
   "note": ""
  },
  {
   "property": "C12",
   "status": "partial",
   "theorems": [
    "Neutron.Props.C12_refuted",
    "Neutron.Props.C12_iff_partial"
   ],
   "note": "False of the code for batches of 0 or 1 elements (C12_refuted). Proved: true exactly for two or more (C12_iff_partial)."
  },
  {
   "property": "C13",
   "status": "proved",
   "theorems": [
    "Neutron.Props.C13_batch_parse",
    "Neutron.Props.C13_truncated",
    "Neutron.Props.C13_size_stated"
   ],
   "note": ""
  },
  {
   "property": "C14",
   "status": "proved",
   "theorems": [
    "Neutron.Props.C14_single_roundtrip"
   ],
   "note": ""
  },
  {
   "property": "C15",
   "status": "proved",
   "theorems": [
    "Neutron.Props.C15_api_wire"
   ],
   "note": ""
  },
  {
   "property": "C16",
   "status": "proved",
   "theorems": [
    "Neutron.Props.C16_ack_exact"
   ],
   "note": ""
  },
  {
   "property": "C17",
   "status": "proved",
   "theorems": [
    "Neutron.Props.C17_classification",
    "Neutron.Props.C17_says_its_type",
    "Neutron.Props.C17_type_required",
    "Neutron.Props.C17_ids_required",
    "Neutron.Props.C17_service_url",
    "Neutron.Props.C17_reads",
    "Neutron.Props.C17_absent_is_empty"
   ],
   "note": "Every command, field by field. That incomplete ones crash is C74."
  },
  {
   "property": "C18",
   "status": "proved",
   "theorems": [
    "Neutron.Props.C18_exactly_one_place",
    "Neutron.Props.C18_count",
    "Neutron.Props.C18_final",
    "Neutron.Props.C18_requests_are_calls"
   ],
   "note": ""
  },
  {
   "property": "C19",
   "status": "proved",
   "theorems": [
    "Neutron.Props.C19_response_kind",
    "Neutron.Props.C19_never_unresolvable",
    "Neutron.Props.C19_keys_faithful"
   ],
   "note": ""
  },
  {
   "property": "C20",
   "status": "proved",
   "theorems": [
    "Neutron.Props.C20_from_broker",
    "Neutron.Props.C20_unchanged",
    "Neutron.Props.C20_lookup"
   ],
   "note": ""
  },
  {
   "property": "C21",
   "status": "partial",
   "theorems": [
    "Neutron.Props.C21_refuted",
    "Neutron.Props.C75_own_response"
   ],
   "note": "False of the code: requests of one kind share a key (C21_refuted). The true core is C75."
  },
  {
   "property": "C22",
   "status": "partial",
   "theorems": [
    "Neutron.Props.C22_refuted",
    "Neutron.Props.C76_one_at_a_time",
    "Neutron.Props.C76_no_failure"
   ],
   "note": "False for several acks outstanding at once (C22_refuted). The true core is C76."
  },
  {
   "property": "C23",
   "status": "partial",
   "theorems": [
    "Neutron.Props.C23_refuted",
    "Neutron.Props.C77_own_receipt",
    "Neutron.Props.C77_single_producer"
   ],
   "note": "False for several producers with the same sequence id outstanding (C23_refuted). The true core is C77."
  },
  {
   "property": "C24",
   "status": "proved",
   "theorems": [
    "Neutron.Props.C24_never_a_response",
    "Neutron.Props.C24_read",
    "Neutron.Props.C24_passed_on"
   ],
   "note": ""
  },
  {
   "property": "C25",
   "status": "proved",
   "theorems": [
    "Neutron.Props.C25_exactly_once_in_order",
    "Neutron.Props.C25_all_received",
    "Neutron.Props.C25_nothing_before",
    "Neutron.Props.C25_next"
   ],
   "note": ""
  },
  {
   "property": "C26",
   "status": "proved",
   "theorems": [
    "Neutron.Props.C26_only_own",
    "Neutron.Props.C26_ids"
   ],
   "note": ""
  },
  {
   "property": "C27",
   "status": "proved",
   "theorems": [
    "Neutron.Props.C27_in_order",
    "Neutron.Props.C27_one_broker",
    "Neutron.Props.C27_never_reordered",
    "Neutron.Props.C27_content",
    "Neutron.Props.C27_submitted"
   ],
   "note": ""
  },
  {
   "property": "C28",
   "status": "proved",
   "theorems": [
    "Neutron.Props.C28_as_many_pongs_as_pings",
    "Neutron.Props.C28_no_other_pongs",
    "Neutron.Props.C28_one_ping"
   ],
   "note": ""
  },
  {
   "property": "C29",
   "status": "proved",
   "theorems": [
    "Neutron.Props.C29_unique_ids",
    "Neutron.Props.C29_stable"
   ],
   "note": ""
  },
  {
   "property": "C30",
   "status": "proved",
   "theorems": [
    "Neutron.Props.C30_credentials",
    "Neutron.Props.C30_fresh_answer",
    "Neutron.Props.C30_only_source"
   ],
   "note": ""
  },
  {
   "property": "C31",
   "status": "proved",
   "theorems": [
    "Neutron.Props.C31_waiting_fail",
    "Neutron.Props.C31_none_waiting",
    "Neutron.Props.C31_final",
    "Neutron.Props.C31_error",
    "Neutron.Props.C31_refused",
    "Neutron.Props.C31_register",
    "Neutron.Props.C31_reads"
   ],
   "note": "For clients the engine has registered; a client whose creation took another creation's reply is C43_refuted_never_served."
  },
  {
   "property": "C32",
   "status": "partial",
   "theorems": [
    "Neutron.Props.C32_refuted_send",
    "Neutron.Props.C32_refuted",
    "Neutron.Props.C78_only_untaken",
    "Neutron.Props.C78_others_complete"
   ],
   "note": "False of the code: a request in a live client's channel when the engine stops hangs (C32_refuted for all continuations, C32_refuted_send a concrete send). The true core is C78."
  },
  {
   "property": "C33",
   "status": "partial",
   "theorems": [
    "Neutron.Props.C33_refuted",
    "Neutron.Props.C33_refuted_run",
    "Neutron.Props.C79_served",
    "Neutron.Props.C79_drop_is_local"
   ],
   "note": "False of the code: the engine stops when a client was dropped (C33_refuted for every state, C33_refuted_run concrete). The true core is C79."
  },
  {
   "property": "C34",
   "status": "proved",
   "theorems": [
    "Neutron.Props.C34_stays_lost",
    "Neutron.Props.C34_never_ignored"
   ],
   "note": "Detection. That everything received is processed first is C80 (false)."
  },
  {
   "property": "C35",
   "status": "partial",
   "theorems": [
    "Neutron.Props.C35_refuted",
    "Neutron.Props.C35_refuted_run"
   ],
   "note": "False of the code for every request and state (C35_refuted): ERROR and SEND_ERROR are ignored. Nothing positive remains to prove."
  },
  {
   "property": "C36",
   "status": "partial",
   "theorems": [
    "Neutron.Props.C36_refuted",
    "Neutron.Props.C36_refuted_run"
   ],
   "note": "False of the code (C36_refuted, for every state in which the engine waits for CONNECTED). Nothing positive remains to prove."
  },
  {
   "property": "C37",
   "status": "proved",
   "theorems": [
    "Neutron.Props.C37_connect",
    "Neutron.Props.C37_names_target",
    "Neutron.Props.C37_later_commands"
   ],
   "note": ""
  },
  {
   "property": "C38",
   "status": "partial",
   "theorems": [
    "Neutron.Props.C38_refuted",
    "Neutron.Props.C81_producer",
    "Neutron.Props.C81_consumer"
   ],
   "note": "False for a non-proxied answer naming another broker (C38_refuted). The true core is C81."
  },
  {
   "property": "C39",
   "status": "partial",
   "theorems": [
    "Neutron.Props.C39_refuted",
    "Neutron.Props.C39_refuted_redirect",
    "Neutron.Props.C82_first_lookup"
   ],
   "note": "False for the second lookup and for redirect answers (C39_refuted, C39_refuted_redirect). The true core is C82."
  },
  {
   "property": "C40",
   "status": "proved",
   "theorems": [
    "Neutron.Props.C40_producer_order",
    "Neutron.Props.C40_consumer_order",
    "Neutron.Props.C40_producer_result",
    "Neutron.Props.C40_consumer_result"
   ],
   "note": ""
  },
  {
   "property": "C41",
   "status": "partial",
   "theorems": [
    "Neutron.Props.C41_refuted",
    "Neutron.Props.C83_stays_servable"
   ],
   "note": "False: select_all polls in a fixed order (C41_refuted is an infinite run in which the engine never rests). The true core is C83."
  },
  {
   "property": "C42",
   "status": "partial",
   "theorems": [
    "Neutron.Props.C42_refuted",
    "Neutron.Props.C84_engine",
    "Neutron.Props.C84_inbound",
    "Neutron.Props.C84_outbound",
    "Neutron.Props.C84_after_start"
   ],
   "note": "False only where opening a TLS connection or the auth plugin panics; the true core is C84."
  },
  {
   "property": "C43",
   "status": "partial",
   "theorems": [
    "Neutron.Props.C43_refuted",
    "Neutron.Props.C43_refuted_never_served",
    "Neutron.Props.C85_one_at_a_time",
    "Neutron.Props.C85_queued",
    "Neutron.Props.C85_gone",
    "Neutron.Props.C85_can_create"
   ],
   "note": "False for concurrent creations (C43_refuted, C43_refuted_never_served); the true core is C85."
  },
  {
   "property": "C44",
   "status": "proved",
   "theorems": [
    "Neutron.Props.C44_consecutive",
    "Neutron.Props.C44_unique"
   ],
   "note": ""
  },
  {
   "property": "C45",
   "status": "proved",
   "theorems": [
    "Neutron.Props.C45_send",
    "Neutron.Props.C45_send_batch",
    "Neutron.Props.C45_lost_while_waiting"
   ],
   "note": "Covers both outcomes. A send handed over just before the engine stops never returns: C32_refuted_send."
  },
  {
   "property": "C46",
   "status": "partial",
   "theorems": [
    "Neutron.Props.C46_refuted_always_ok",
    "Neutron.Props.C46_refuted",
    "Neutron.Props.C86_send_all"
   ],
   "note": "False of the code: send_all always returns Ok. The true core is C86."
  },
  {
   "property": "C47",
   "status": "partial",
   "theorems": [
    "Neutron.Props.C47_refuted_always_ok",
    "Neutron.Props.C47_refuted",
    "Neutron.Props.C87_ack_all"
   ],
   "note": "False of the code: ack_all always returns Ok. The true core is C87."
  },
  {
   "property": "C48",
   "status": "proved",
   "theorems": [
    "Neutron.Props.C48_in_order",
    "Neutron.Props.C48_next_is_returned",
    "Neutron.Props.C48_waits_only_at_the_end"
   ],
   "note": ""
  },
  {
   "property": "C49",
   "status": "proved",
   "theorems": [
    "Neutron.Props.C49_serialisable",
    "Neutron.Props.C49_at_most_one"
   ],
   "note": ""
  },
  {
   "property": "C50",
   "status": "proved",
   "theorems": [
    "Neutron.Props.C50_cancellation_safe",
    "Neutron.Props.C50_buffer_released"
   ],
   "note": ""
  },
  {
   "property": "C51",
   "status": "proved",
   "theorems": [
    "Neutron.Props.C51_bound",
    "Neutron.Props.C51_zero"
   ],
   "note": ""
  },
  {
   "property": "C52",
   "status": "partial",
   "theorems": [
    "Neutron.Props.C52_refuted",
    "Neutron.Props.C88_unbatched",
    "Neutron.Props.C88_no_duplicates"
   ],
   "note": "False with batches (reversed order, surplus dropped). The true core is C88."
  },
  {
   "property": "C53",
   "status": "partial",
   "theorems": [
    "Neutron.Props.C53_refuted",
    "Neutron.Props.C53_failure_refuted",
    "Neutron.Props.C89_cancelled",
    "Neutron.Props.C89_failed"
   ],
   "note": "False with batches. The true core is C89."
  },
  {
   "property": "C54",
   "status": "proved",
   "theorems": [
    "Neutron.Props.C54_not_starved",
    "Neutron.Props.C54_not_starved_250"
   ],
   "note": ""
  },
  {
   "property": "C55",
   "status": "partial",
   "theorems": [
    "Neutron.Props.C55_refuted",
    "Neutron.Props.C90_next_message",
    "Neutron.Props.C90_next_batch"
   ],
   "note": "False for batches larger than two (C55_refuted, every permit setting). The true core is C90."
  },
  {
   "property": "C56",
   "status": "partial",
   "theorems": [
    "Neutron.Props.C56_refuted",
    "Neutron.Props.C91_bound"
   ],
   "note": "False: permits held grow without bound (C56_refuted). The true core is C91."
  },
  {
   "property": "C57",
   "status": "partial",
   "theorems": [
    "Neutron.Props.C57_twice_refuted",
    "Neutron.Props.C57_lost_refuted",
    "Neutron.Props.C92_sequential"
   ],
   "note": "False for overlapping calls (granted twice, and lost). The true core is C92."
  },
  {
   "property": "C58",
   "status": "partial",
   "theorems": [
    "Neutron.Props.C58_permits_refuted",
    "Neutron.Props.C58_batch_refuted",
    "Neutron.Props.C93_unbatched",
    "Neutron.Props.C93_no_crash"
   ],
   "note": "False for batches (crash) and for permits (never granted again). The true core is C93."
  },
  {
   "property": "C59",
   "status": "proved",
   "theorems": [
    "Neutron.Props.C59_offers",
    "Neutron.Props.C59_stops",
    "Neutron.Props.C59_first_failure"
   ],
   "note": ""
  },
  {
   "property": "C60",
   "status": "proved",
   "theorems": [
    "Neutron.Props.C60_batch_ids"
   ],
   "note": ""
  },
  {
   "property": "C61",
   "status": "proved",
   "theorems": [
    "Neutron.Props.C61_token_cache",
    "Neutron.Props.C61_huge_lifetime_panics"
   ],
   "note": ""
  },
  {
   "property": "C62",
   "status": "proved",
   "theorems": [
    "Neutron.Props.C62_proxy_target",
    "Neutron.Props.C62_unchanged",
    "Neutron.Props.C62_proxy_known"
   ],
   "note": ""
  },
  {
   "property": "C63",
   "status": "proved",
   "theorems": [
    "Neutron.Props.C63_config_agrees",
    "Neutron.Props.C63_tls"
   ],
   "note": "TLS iff pulsar+ssl:// and no downgrade. Hosts that are not valid TLS server names: C94."
  },
  {
   "property": "C64",
   "status": "proved",
   "theorems": [
    "Neutron.Props.C64_eq_hash"
   ],
   "note": ""
  },
  {
   "property": "C65",
   "status": "partial",
   "theorems": [
    "Neutron.Props.C65_refuted",
    "Neutron.Props.C95_flush",
    "Neutron.Props.C95_order"
   ],
   "note": "False if the broker sends anything more (C65_refuted); the true core is C95."
  },
  {
   "property": "C66",
   "status": "proved",
   "theorems": [
    "Neutron.Props.C66_truncated_stream"
   ],
   "note": ""
  },
  {
   "property": "C67",
   "status": "proved",
   "theorems": [
    "Neutron.Props.C67_ack_id"
   ],
   "note": ""
  },
  {
   "property": "C68",
   "status": "proved",
   "theorems": [
    "Neutron.Props.C68_one_connection",
    "Neutron.Props.C68_opened_only",
    "Neutron.Props.C68_shared"
   ],
   "note": ""
  },
  {
   "property": "C69",
   "status": "proved",
   "theorems": [
    "Neutron.Props.C69_answered"
   ],
   "note": "Ok only with an answer. That rejections are ignored is C96, that answers are mixed up C22."
  },
  {
   "property": "C70",
   "status": "proved",
   "theorems": [
    "Neutron.Props.C70_socket_to_application",
    "Neutron.Props.C70_everything_arrives",
    "Neutron.Props.C70_calls_go_on",
    "Neutron.Props.C70_next_is_returned"
   ],
   "note": "Composition of the framing, engine and consumer models (Model/World.lean). next_batch is excluded (see C51-C54); messages for the consumer that arrived before it was attached are excluded by hypothesis."
  },
  {
   "property": "C71",
   "status": "proved",
   "theorems": [
    "Neutron.Props.C71_whole_commands",
    "Neutron.Props.C71_reported_is_sent",
    "Neutron.Props.C71_everything_is_sent",
    "Neutron.Props.C71_broker_reads"
   ],
   "note": "Write side of tokio-util Framed modelled in Model/World.lean (buffer, partial flushes, full buffer)."
  },
  {
   "property": "C72",
   "status": "proved",
   "theorems": [
    "Neutron.Props.C72_panic_iff",
    "Neutron.Props.C72_wellformed",
    "Neutron.Props.C72_frames_readable"
   ],
   "note": "The exact condition for a panic, both directions."
  },
  {
   "property": "C73",
   "status": "proved",
   "theorems": [
    "Neutron.Props.C73_release",
    "Neutron.Props.C73_debug",
    "Neutron.Props.C73_fits"
   ],
   "note": "Both build modes, all lengths."
  },
  {
   "property": "C74",
   "status": "partial",
   "theorems": [
    "Neutron.Props.C74_refuted"
   ],
   "note": "False of the code for three command shapes (C74_refuted). C17 says exactly which commands panic."
  },
  {
   "property": "C75",
   "status": "proved",
   "theorems": [
    "Neutron.Props.C75_own_response"
   ],
   "note": "Hypotheses: honest brokers, no two outstanding requests with the same key."
  },
  {
   "property": "C76",
   "status": "proved",
   "theorems": [
    "Neutron.Props.C76_one_at_a_time",
    "Neutron.Props.C76_no_failure"
   ],
   "note": ""
  },
  {
   "property": "C77",
   "status": "proved",
   "theorems": [
    "Neutron.Props.C77_own_receipt",
    "Neutron.Props.C77_single_producer"
   ],
   "note": ""
  },
  {
   "property": "C78",
   "status": "proved",
   "theorems": [
    "Neutron.Props.C78_only_untaken",
    "Neutron.Props.C78_others_complete"
   ],
   "note": ""
  },
  {
   "property": "C79",
   "status": "proved",
   "theorems": [
    "Neutron.Props.C79_served",
    "Neutron.Props.C79_drop_is_local"
   ],
   "note": ""
  },
  {
   "property": "C80",
   "status": "partial",
   "theorems": [
    "Neutron.Props.C80_without_ping_partial",
    "Neutron.Props.C80_refuted"
   ],
   "note": "False when a ping is queued behind the close (C80_refuted); proved if there is none (C80_without_ping_partial)."
  },
  {
   "property": "C81",
   "status": "proved",
   "theorems": [
    "Neutron.Props.C81_producer",
    "Neutron.Props.C81_consumer"
   ],
   "note": ""
  },
  {
   "property": "C82",
   "status": "proved",
   "theorems": [
    "Neutron.Props.C82_first_lookup"
   ],
   "note": ""
  },
  {
   "property": "C83",
   "status": "proved",
   "theorems": [
    "Neutron.Props.C83_stays_servable"
   ],
   "note": ""
  },
  {
   "property": "C84",
   "status": "proved",
   "theorems": [
    "Neutron.Props.C84_engine",
    "Neutron.Props.C84_inbound",
    "Neutron.Props.C84_outbound",
    "Neutron.Props.C84_after_start"
   ],
   "note": ""
  },
  {
   "property": "C85",
   "status": "proved",
   "theorems": [
    "Neutron.Props.C85_one_at_a_time",
    "Neutron.Props.C85_queued",
    "Neutron.Props.C85_gone",
    "Neutron.Props.C85_can_create"
   ],
   "note": ""
  },
  {
   "property": "C86",
   "status": "proved",
   "theorems": [
    "Neutron.Props.C86_send_all"
   ],
   "note": ""
  },
  {
   "property": "C87",
   "status": "proved",
   "theorems": [
    "Neutron.Props.C87_ack_all"
   ],
   "note": ""
  },
  {
   "property": "C88",
   "status": "proved",
   "theorems": [
    "Neutron.Props.C88_unbatched",
    "Neutron.Props.C88_no_duplicates"
   ],
   "note": ""
  },
  {
   "property": "C89",
   "status": "proved",
   "theorems": [
    "Neutron.Props.C89_cancelled",
    "Neutron.Props.C89_failed"
   ],
   "note": ""
  },
  {
   "property": "C90",
   "status": "proved",
   "theorems": [
    "Neutron.Props.C90_next_message",
    "Neutron.Props.C90_next_batch"
   ],
   "note": "The bound is exact for one call at a time (see C55_refuted)."
  },
  {
   "property": "C91",
   "status": "proved",
   "theorems": [
    "Neutron.Props.C91_bound"
   ],
   "note": ""
  },
  {
   "property": "C92",
   "status": "proved",
   "theorems": [
    "Neutron.Props.C92_sequential"
   ],
   "note": ""
  },
  {
   "property": "C93",
   "status": "proved",
   "theorems": [
    "Neutron.Props.C93_unbatched",
    "Neutron.Props.C93_no_crash"
   ],
   "note": ""
  },
  {
   "property": "C94",
   "status": "partial",
   "theorems": [
    "Neutron.Props.C94_refuted"
   ],
   "note": "False of the code: an IPv6 literal with pulsar+ssl:// panics (C94_refuted). C63 covers all other outcomes."
  },
  {
   "property": "C95",
   "status": "proved",
   "theorems": [
    "Neutron.Props.C95_flush",
    "Neutron.Props.C95_order"
   ],
   "note": ""
  },
  {
   "property": "C96",
   "status": "partial",
   "theorems": [
    "Neutron.Props.C96_refuted_error_ignored",
    "Neutron.Props.C96_refuted"
   ],
   "note": "False of the code, for every response (C96_refuted_error_ignored) and as a run (C96_refuted)."
  },
  {
   "property": "C97",
   "status": "proved",
   "theorems": [
    "Neutron.Props.C97_why",
    "Neutron.Props.C97_keeps_running"
   ],
   "note": "Step-wise with the reason at that moment (C97_why), and over whole runs (C97_keeps_running)."
  },
  {
   "property": "C98",
   "status": "partial",
   "theorems": [
    "Neutron.Props.C98_partial",
    "Neutron.Props.C98_refuted",
    "Neutron.Props.C98_refuted_run"
   ],
   "note": "False of the code: if the connection ends while the engine's Connect is still in its channel, the engine waits for ever (C98_refuted for all continuations, C98_refuted_run concrete). Proved (C98_partial): once the connection took the Connect, its end ends the wait; without such a wait see C34."
  },
  {
   "property": "C99",
   "status": "proved",
   "theorems": [
    "Neutron.Props.C99_why",
    "Neutron.Props.C99_in_run",
    "Neutron.Props.C99_errors_skipped"
   ],
   "note": ""
  },
  {
   "property": "C100",
   "status": "proved",
   "theorems": [
    "Neutron.Props.C100_at_most_once",
    "Neutron.Props.C100_confirmed_is_received"
   ],
   "note": "Stated on the bytes the sockets accepted and the bytes brokers sent, without reference to the client's bookkeeping of requests. With another producer using the same sequence id at the same time the claim is false (C23)."
  },
  {
   "property": "C101",
   "status": "partial",
   "theorems": [
    "Neutron.Props.C101_refuted_spins",
    "Neutron.Props.C101_refuted"
   ],
   "note": "False: after the PulsarManager is dropped while clients live, the closed registration channel is ready for ever and is only logged (C101_refuted, C101_refuted_spins). True part: C102."
  },
  {
   "property": "C102",
   "status": "proved",
   "theorems": [
    "Neutron.Props.C102_rests",
    "Neutron.Props.C102_work",
    "Neutron.Props.C102_waits"
   ],
   "note": ""
  },
  {
   "property": "C103",
   "status": "partial",
   "theorems": [
    "Neutron.Props.C103_refuted"
   ],
   "note": "False while the engine waits for the answer to a CONNECT that was rejected or never answered: engine and sockets stay for ever (C103_refuted). True part: C104."
  },
  {
   "property": "C104",
   "status": "proved",
   "theorems": [
    "Neutron.Props.C104_goes_on",
    "Neutron.Props.C104_bounded",
    "Neutron.Props.C104_connections"
   ],
   "note": "Progress and bound are proved; that the runtime eventually picks the branch (fairness of select!) is not modelled."
  },
  {
   "property": "C105",
   "status": "proved",
   "theorems": [
    "Neutron.Props.C105_value_sent_is_value_received",
    "Neutron.Props.C105_every_value_arrives"
   ],
   "note": "C105_value_sent_is_value_received is the safety part, C105_every_value_arrives the exact part. The broker is a relation between the command sequences on the two sockets (Spec/Relay.lean), not a model of Pulsar. One-element and empty batches are excluded because they do not arrive as sent (C12)."
  },
  {
   "property": "C106",
   "status": "proved",
   "theorems": [
    "Neutron.Props.C106_missing",
    "Neutron.Props.C106_steps",
    "Neutron.Props.C106_result",
    "Neutron.Props.C106_producer_missing",
    "Neutron.Props.C106_producer_steps",
    "Neutron.Props.C106_producer_result",
    "Neutron.Props.C106_instance"
   ],
   "note": "C106_missing/C106_steps/C106_result for consumers, C106_producer_* for producers, C106_instance for Pulsar instances."
  },
  {
   "property": "C107",
   "status": "partial",
   "theorems": [
    "Neutron.Props.C107_send",
    "Neutron.Props.C107_only_serialised",
    "Neutron.Props.C107_refuted_batch",
    "Neutron.Props.C107_refuted_all"
   ],
   "note": "True for send (C107_send), and nothing but serialisations of the given values is ever handed over (C107_only_serialised). False for send_batch, which panics (C107_refuted_batch), and for send_all, which leaves the value out and returns Ok (C107_refuted_all)."
  },
  {
   "property": "C108",
   "status": "proved",
   "theorems": [
    "Neutron.Props.C108_read_side",
    "Neutron.Props.C108_error_alone",
    "Neutron.Props.C108_next_poll_ends"
   ],
   "note": "C108_read_side, C108_error_alone, C108_next_poll_ends."
  },
  {
   "property": "C109",
   "status": "proved",
   "theorems": [
    "Neutron.Props.C109_any_encoding",
    "Neutron.Props.C109_written_is_standard",
    "Neutron.Props.C109_unambiguous",
    "Neutron.Props.C109_any_frame"
   ],
   "note": "Spec/ProtoFormat.lean describes the encoding declaratively (inductive predicates for varints, tags, fields, packed lists, field semantics) without the parser's functions; the theorem is an equivalence. The converse direction (nothing else is accepted) is about the model: protobuf groups (wire types 3 and 4, unused by Pulsar) are rejected by the model and skipped by rust-protobuf. All stream theorems (C02, C66, C70, C71 and the end-to-end ones) quantify over such arbitrary encodings."
  },
  {
   "property": "C110",
   "status": "proved",
   "theorems": [
    "Neutron.Props.C110_client",
    "Neutron.Props.C110_connection",
    "Neutron.Props.C110_reads",
    "Neutron.Props.C110_registration"
   ],
   "note": ""
  },
  {
   "property": "C111",
   "status": "proved",
   "theorems": [
    "Neutron.Props.C111_answered",
    "Neutron.Props.C111_at_rest",
    "Neutron.Props.C111_servable"
   ],
   "note": "completion may be a cancellation (C22: a second request with the same key overwrites the first)"
  },
  {
   "property": "C112",
   "status": "proved",
   "theorems": [
    "Neutron.Props.C112_bounded_wait"
   ],
   "note": ""
  },
  {
   "property": "C113",
   "status": "proved",
   "theorems": [
    "Neutron.Props.C113_consumer",
    "Neutron.Props.C113_producer"
   ],
   "note": ""
  },
  {
   "property": "C114",
   "status": "proved",
   "theorems": [
    "Neutron.Props.C114_valid_token",
    "Neutron.Props.C114_failure_stops"
   ],
   "note": ""
  },
  {
   "property": "C115",
   "status": "partial",
   "theorems": [
    "Neutron.Props.C115_refuted",
    "Neutron.Props.C115_second_plugin_refuted",
    "Neutron.Props.C115_at_most_the_last"
   ],
   "note": "False: C115_refuted (a call waiting for the plugins drops the message it took) and C115_second_plugin_refuted. C115_at_most_the_last is the strongest true part: only the last message received can be affected."
  },
  {
   "property": "C116",
   "status": "partial",
   "theorems": [
    "Neutron.Props.C116_client_dropped",
    "Neutron.Props.C116_refuted_in_general",
    "Neutron.Props.C116_missing_value",
    "Neutron.Props.C116_refuted"
   ],
   "note": "False of the code: a failed `connect` drops the client it had made, and the engine stops for everybody the next time it looks at that client's empty channel. `C116_refuted` is a whole execution, `C116_refuted_in_general` says it of every execution, `C116_client_dropped` says what a failed `connect` leaves behind. True part: a `connect` that fails for want of a required value disturbs nobody (`C116_missing_value`)."
  },
  {
   "property": "C117",
   "status": "proved",
   "theorems": [
    "Neutron.Props.C117_send",
    "Neutron.Props.C117_send_batch",
    "Neutron.Props.C117_ack",
    "Neutron.Props.C117_send_received",
    "Neutron.Props.C117_batch_received"
   ],
   "note": "C117_send, C117_send_batch, C117_ack: the API call's Ok traced to a response read from a connection; C117_send_received, C117_batch_received: with honest brokers, the payload is on a broker. The condition that no other producer of the instance shares the sequence id is necessary (C23: keys are per engine)."
  },
  {
   "property": "C118",
   "status": "proved",
   "theorems": [
    "Neutron.Props.C118_request",
    "Neutron.Props.C118_send",
    "Neutron.Props.C118_send_batch",
    "Neutron.Props.C118_ack"
   ],
   "note": "C118_request for any request of the engine; C118_send, C118_send_batch, C118_ack for the application's calls. An example shows two concurrent acks of one consumer, the first failing while the engine runs."
  },
  {
   "property": "C119",
   "status": "proved",
   "theorems": [
    "Neutron.Props.C119_on_the_wire",
    "Neutron.Props.C119_sends_in_order",
    "Neutron.Props.C119_call_in_order",
    "Neutron.Props.C119_send_all",
    "Neutron.Props.C119_ack_all"
   ],
   "note": "C119_sends_in_order from the application's calls to the bytes; C119_on_the_wire for any two SENDs of a producer; C119_send_all, C119_ack_all, C119_call_in_order within one call. Examples run two sends and a send_all of two messages from `new` to their receipts."
  },
  {
   "property": "C120",
   "status": "proved",
   "theorems": [
    "Neutron.Props.C120_progress",
    "Neutron.Props.C120_returns",
    "Neutron.Props.C120_can_drop"
   ],
   "note": "Stated at the level of the application's calls; that what is awaited does arrive depends on the engine and the broker (C110-C112)."
  },
  {
   "property": "C121",
   "status": "proved",
   "theorems": [
    "Neutron.Props.C121_asked",
    "Neutron.Props.C121_acks",
    "Neutron.Props.C121_sends"
   ],
   "note": "C121_asked gives an injective attribution of everything on all sockets to steps of calls; C121_acks and C121_sends are the two consequences users rely on."
  },
  {
   "property": "C122",
   "status": "proved",
   "theorems": [
    "Neutron.Props.C122_form",
    "Neutron.Props.C122_unchanged",
    "Neutron.Props.C122_request",
    "Neutron.Props.C122_scopes",
    "Neutron.Props.C122_distinct"
   ],
   "note": ""
  },
  {
   "property": "C123",
   "status": "partial",
   "theorems": [
    "Neutron.Props.C123_refuted",
    "Neutron.Props.C123_refuted_run"
   ],
   "note": "Refuted: the notice has no effect at all, and a call that receives waits on; C124 is what holds."
  },
  {
   "property": "C124",
   "status": "proved",
   "theorems": [
    "Neutron.Props.C124_no_effect"
   ],
   "note": ""
  },
  {
   "property": "C125",
   "status": "proved",
   "theorems": [
    "Neutron.Props.C125_text_identifies",
    "Neutron.Props.C125_details"
   ],
   "note": ""
  },
  {
   "property": "C126",
   "status": "proved",
   "theorems": [
    "Neutron.Props.C126_completes",
    "Neutron.Props.C126_connect",
    "Neutron.Props.C126_call_goes_on"
   ],
   "note": "Liveness end to end. It is about being completed (with a response or because the engine stopped); which response is C20, C75. The bound is in steps, not in time."
  },
  {
   "property": "C127",
   "status": "proved",
   "theorems": [
    "Neutron.Props.C127_reaches",
    "Neutron.Props.C127_call"
   ],
   "note": "C110 lifted to the bytes the sockets accept; the other direction of C126"
  },
  {
   "property": "C128",
   "status": "proved",
   "theorems": [
    "Neutron.Props.C128_send",
    "Neutron.Props.C128_send_batch",
    "Neutron.Props.C128_ack"
   ],
   "note": "Proved at the level of the whole instance (sockets, connections, engine, clients, calls): C128_send, C128_send_batch, C128_ack. The step counts are those of the model: polls of the socket, engine steps for that connection, two steps of the call."
  },
  {
   "property": "C129",
   "status": "proved",
   "theorems": [
    "Neutron.Props.C129_given",
    "Neutron.Props.C129_not_starved"
   ],
   "note": "C129_given: the permits on the wire are at least those granted; C129_not_starved: they exceed the messages sent. Batches and undecodable payloads are excluded because the claim is false for them (C58/C93 and findings); the bound of 251 calls is the one of C54."
  },
  {
   "property": "C130",
   "status": "partial",
   "theorems": [
    "Neutron.Props.C130_reads",
    "Neutron.Props.C130_or_writes",
    "Neutron.Props.C130_others_go_on",
    "Neutron.Props.C130_held_reads_nothing",
    "Neutron.Props.C130_writes_first",
    "Neutron.Props.C130_refuted"
   ],
   "note": "refuted: C130_refuted (a concrete run whose message is read in no continuation without the write ending first), C130_held_reads_nothing and C130_writes_first for every run; C130_reads, C130_or_writes, C130_others_go_on are the part that holds"
  },
  {
   "property": "C131",
   "status": "partial",
   "theorems": [
    "Neutron.Props.C131_engine_waits",
    "Neutron.Props.C131_ends",
    "Neutron.Props.C131_begins",
    "Neutron.Props.C131_connections_go_on",
    "Neutron.Props.C131_greeting",
    "Neutron.Props.C131_refuted"
   ],
   "note": "refuted: C131_refuted (two clients, the second one's command is taken in no continuation before the attempt ends) and C131_engine_waits for every run; C131_ends, C131_begins, C131_connections_go_on, C131_greeting are the part that holds"
  },
  {
   "property": "C132",
   "status": "proved",
   "theorems": [
    "Neutron.Props.C132_consumer",
    "Neutron.Props.C132_producer",
    "Neutron.Props.C132_one_at_a_time"
   ],
   "note": "C132_consumer, C132_producer, C132_one_at_a_time. Two runs in Props/ConnectFailsExample.lean meet the hypotheses: a lookup answered with a failure, and two concurrent `connect`s of which the first fails because the second one's lookup takes its place."
  },
  {
   "property": "C133",
   "status": "proved",
   "theorems": [
    "Neutron.Props.C133_producer",
    "Neutron.Props.C133_consumer",
    "Neutron.Props.C133_at_most_five",
    "Neutron.Props.C133_goes_on"
   ],
   "note": "C133_producer and C133_consumer start from a state where the last command has been handed over and taken by the engine and its response is on the wire; C133_goes_on and C133_at_most_five give the steps before."
  },
  {
   "property": "C134",
   "status": "partial",
   "theorems": [
    "Neutron.Props.C134_identified",
    "Neutron.Props.C134_alone",
    "Neutron.Props.C134_refuted"
   ],
   "note": "C134_identified and C134_alone hold for the commands as a broker decodes them from the bytes; the unrestricted claim is refuted by two lookups of two consumers on one connection (C134_refuted). At most 2^64 clients and requests per client (counters wrap)."
  },
  {
   "property": "C135",
   "status": "proved",
   "theorems": [
    "Neutron.Props.C135_one_connection"
   ],
   "note": "C135_one_connection, on the bytes each socket accepted. The calls on a producer or consumer are restricted to those the types offer (App.Offers), as the model of the application also allows other programs. Example: a producer behind a proxy, with two connections."
  },
  {
   "property": "C136",
   "status": "proved",
   "theorems": [
    "Neutron.Props.C136_one_stream",
    "Neutron.Props.C136_all_of_it"
   ],
   "note": "C136_one_stream and C136_all_of_it. Unlike C70, the consumer's being attached to a broker is not assumed: it follows from what brokers may do (World.DeliversOnlySubscribed) and what applications can call (App.Offers). Example: a consumer behind a proxy, with two connections, gets a message."
  },
  {
   "property": "C137",
   "status": "partial",
   "theorems": [
    "Neutron.Props.C137_next_message",
    "Neutron.Props.C137_one_at_a_time",
    "Neutron.Props.C137_inner_consume",
    "Neutron.Props.C137_inner_waits",
    "Neutron.Props.C137_refuted"
   ],
   "note": "C137_next_message, C137_one_at_a_time, C137_inner_consume and C137_inner_waits are what holds; C137_refuted is the deadlock, as a concrete run and all its continuations."
  },
  {
   "property": "C138",
   "status": "proved",
   "theorems": [
    "Neutron.Props.C138_acknowledged_was_given",
    "Neutron.Props.C138_not_given_not_acknowledged",
    "Neutron.Props.C138_calls"
   ],
   "note": "C138_acknowledged_was_given and its contrapositive C138_not_given_not_acknowledged; C138_calls says which calls of the API ask for which acknowledgements."
  },
  {
   "property": "C139",
   "status": "partial",
   "theorems": [
    "Neutron.Props.C139_own_entry",
    "Neutron.Props.C139_whole_batch",
    "Neutron.Props.C139_refuted"
   ],
   "note": "C139_own_entry is the true part; C139_whole_batch (for every batch) and C139_refuted (a concrete one) the false part. What an ACK means to a broker is not in the repository: Spec/AckMeaning.lean states it after Pulsar's protocol (PulsarApi.proto, batch index acknowledgement)."
  },
  {
   "property": "C140",
   "status": "proved",
   "theorems": [
    "Neutron.Props.C140_in_order",
    "Neutron.Props.C140_waits_only_at_the_end",
    "Neutron.Props.C140_next_is_returned"
   ],
   "note": "C140_in_order, C140_waits_only_at_the_end, C140_next_is_returned. The part of C52/C53 that does hold for streams with batches."
  },
  {
   "property": "C141",
   "status": "partial",
   "theorems": [
    "Neutron.Props.C141_refuted"
   ],
   "note": "False for next_batch (C141_refuted): next_batch(n) with fewer than n messages in the buffer takes them and then waits for one more message, however long that takes. True for next_message and consume (C48_waits_only_at_the_end), for next_batch on streams without batches (C88_unbatched) and for next_batch alone with room for whole batches (C140_waits_only_at_the_end)."
  },
  {
   "property": "C142",
   "status": "proved",
   "theorems": [
    "Neutron.Props.C142_returns",
    "Neutron.Props.C142_fails"
   ],
   "note": "C142_returns and C142_fails."
  },
  {
   "property": "C143",
   "status": "proved",
   "theorems": [
    "Neutron.Props.C143_commands",
    "Neutron.Props.C143_first",
    "Neutron.Props.C143_in_turn",
    "Neutron.Props.C143_written",
    "Neutron.Props.C143_reads",
    "Neutron.Props.C143_requests",
    "Neutron.Props.C143_requests_in_turn",
    "Neutron.Props.C143_pings",
    "Neutron.Props.C143_messages",
    "Neutron.Props.C143_silence_needed"
   ],
   "note": "C143_commands, C143_first, C143_in_turn, C143_written, C143_reads, C143_requests, C143_requests_in_turn, C143_pings, C143_messages, C143_silence_needed."
  },
  {
   "property": "C144",
   "status": "proved",
   "theorems": [
    "Neutron.Props.C144_returns",
    "Neutron.Props.C144_returns_in_turn",
    "Neutron.Props.C144_library"
   ],
   "note": "C144_returns, C144_returns_in_turn, C144_library."
  },
  {
   "property": "C145",
   "status": "proved",
   "theorems": [
    "Neutron.Props.C145_waiting",
    "Neutron.Props.C145_returns",
    "Neutron.Props.C145_all_handed_out",
    "Neutron.Props.C145_all_offered",
    "Neutron.Props.C145_consume",
    "Neutron.Props.C145_socket_to_application",
    "Neutron.Props.C145_each_message",
    "Neutron.Props.C145_socket_to_plugins"
   ],
   "note": "C145_waiting, C145_returns, C145_all_handed_out, C145_all_offered, C145_consume, C145_socket_to_application, C145_each_message, C145_socket_to_plugins."
  },
  {
   "property": "C146",
   "status": "proved",
   "theorems": [
    "Neutron.Props.C146_commands",
    "Neutron.Props.C146_handed_over",
    "Neutron.Props.C146_call",
    "Neutron.Props.C146_library",
    "Neutron.Props.C146_send",
    "Neutron.Props.C146_send_batch",
    "Neutron.Props.C146_send_all",
    "Neutron.Props.C146_ack",
    "Neutron.Props.C146_ack_all"
   ],
   "note": "C146_commands, C146_handed_over, C146_call, C146_library, C146_send, C146_send_batch, C146_send_all, C146_ack, C146_ack_all."
  },
  {
   "property": "C147",
   "status": "proved",
   "theorems": [
    "Neutron.Props.C147_comes_back",
    "Neutron.Props.C147_plugins",
    "Neutron.Props.C147_accepted",
    "Neutron.Props.C147_reaches",
    "Neutron.Props.C147_acknowledged",
    "Neutron.Props.C147_there"
   ],
   "note": "C147_comes_back, C147_plugins, C147_accepted, C147_reaches, C147_acknowledged, C147_there."
  },
  {
   "property": "C148",
   "status": "proved",
   "theorems": [
    "Neutron.Props.C148_supplied",
    "Neutron.Props.C148_asks",
    "Neutron.Props.C148_granted"
   ],
   "note": "C148_supplied, C148_asks, C148_granted."
  },
  {
   "property": "C149",
   "status": "proved",
   "theorems": [
    "Neutron.Props.C149_in_order",
    "Neutron.Props.C149_all",
    "Neutron.Props.C149_send",
    "Neutron.Props.C149_send_all"
   ],
   "note": "C149_in_order, C149_all, C149_send, C149_send_all."
  },
  {
   "property": "C150",
   "status": "partial",
   "theorems": [
    "Neutron.Props.C150_in_turn",
    "Neutron.Props.C150_refusal",
    "Neutron.Props.C150_goes_on",
    "Neutron.Props.C150_acknowledged",
    "Neutron.Props.C150_refuted"
   ],
   "note": "C150_in_turn, C150_refusal, C150_goes_on, C150_acknowledged; C150_refuted: a run in which a consumer's acknowledgement ends another consumer's consume."
  },
  {
   "property": "C151",
   "status": "proved",
   "theorems": [
    "Neutron.Props.C151_goes_on",
    "Neutron.Props.C151_acknowledged",
    "Neutron.Props.C151_all",
    "Neutron.Props.C151_send",
    "Neutron.Props.C151_send_all"
   ],
   "note": "C151_goes_on, C151_acknowledged, C151_all, C151_send, C151_send_all."
  },
  {
   "property": "C152",
   "status": "proved",
   "theorems": [
    "Neutron.Props.C152_no_effect",
    "Neutron.Props.C152_misdirected",
    "Neutron.Props.C152_same_future"
   ],
   "note": "C152_no_effect, C152_same_future."
  },
  {
   "property": "C153",
   "status": "partial",
   "theorems": [
    "Neutron.Props.C153_refuted"
   ],
   "note": "C153_refuted."
  },
  {
   "property": "C154",
   "status": "proved",
   "theorems": [
    "Neutron.Props.C154_only_pong"
   ],
   "note": "C154_only_pong."
  },
  {
   "property": "C155",
   "status": "proved",
   "theorems": [
    "Neutron.Props.C155_schema",
    "Neutron.Props.C155_reads",
    "Neutron.Props.C155_conforms",
    "Neutron.Props.C155_all_written"
   ],
   "note": "C155_reads, C155_conforms, C155_all_written, C155_schema."
  },
  {
   "property": "C156",
   "status": "proved",
   "theorems": [
    "Neutron.Props.C156_cuts",
    "Neutron.Props.C156_same_future"
   ],
   "note": "C156_cuts, C156_same_future."
  },
  {
   "property": "C157",
   "status": "proved",
   "theorems": [
    "Neutron.Props.C157_unaffected",
    "Neutron.Props.C157_backlog",
    "Neutron.Props.C157_same_future",
    "Neutron.Props.C157_others_reading"
   ],
   "note": "C157_unaffected, C157_same_future"
  }
 ]
}