{
 "claims": [
  {
   "property": "C01",
   "status": "proved",
   "theorems": [
    "Emissary.Stream.C01_bytes_read_are_prefix_of_bytes_written",
    "Emissary.Stream.C01_receiver_reads_prefix_in_sequence_order"
   ],
   "note": "closed loop with an arbitrary network, and the receiver against any consistent peer"
  },
  {
   "property": "C02",
   "status": "proved",
   "theorems": [
    "Emissary.Stream.C02_all_packets_received_all_bytes_ready",
    "Emissary.Stream.C02_quiescent_stream_delivered_everything"
   ],
   "note": "any arrival order of all packets; and quiescent closed loop"
  },
  {
   "property": "C03",
   "status": "partial",
   "theorems": [
    "Emissary.Stream.C03_close_partial",
    "Emissary.Stream.C03_closed_loop_acks_only_delivered_packets",
    "Emissary.Stream.C03_acks_only_received_packets_partial",
    "Emissary.Stream.C03_nack_limit_violated",
    "Emissary.Stream.C03_close_violated"
   ],
   "note": "holds between two emissary endpoints and against any peer while at most 255 packets are missing; violated when more than 255 are missing (NACK list cut) and by the CLOSE packet (no NACKs)"
  },
  {
   "property": "C04",
   "status": "proved",
   "theorems": [
    "Emissary.Stream.C04_refused_iff_too_far_ahead",
    "Emissary.Stream.C04_refused_packet_changes_nothing",
    "Emissary.Stream.C04_accepted_packet_adds_at_most_512_missing",
    "Emissary.Stream.C04_never_refuses_own_sender"
   ],
   "note": "exact boundary, effect of a refusal, growth bound, and never hit by a peer running the same code"
  },
  {
   "property": "C05",
   "status": "proved",
   "theorems": [
    "Emissary.Stream.C05_window_bounds"
   ],
   "note": "every history of writes, flushes, retransmissions and arbitrary acks"
  },
  {
   "property": "C06",
   "status": "proved",
   "theorems": [
    "Emissary.Stream.C06_written_data_retained_until_acked",
    "Emissary.Stream.C06_only_written_data_queued",
    "Emissary.Stream.C06_ack_releases_exactly_covered",
    "Emissary.Stream.C06_ack_of_unsent_data_ignored",
    "Emissary.Stream.C06_closed_loop_released_only_when_delivered"
   ],
   "note": "every history of writes, flushes, retransmissions and arbitrary acks; closed loop version"
  },
  {
   "property": "C07",
   "status": "partial",
   "theorems": [
    "Emissary.Stream.C07_close_overtakes_data_violated",
    "Emissary.Stream.C07_received_data_violated",
    "Emissary.Stream.C07_close_waits_for_known_gaps_partial"
   ],
   "note": "violated: a close can overtake data, and data already received can be dropped when the socket is blocked; the proved part says the stream never ends while a known gap exists"
  },
  {
   "property": "C08",
   "status": "partial",
   "theorems": [
    "Emissary.Stream.C08_pending_stream_gap_violated",
    "Emissary.Stream.C08_in_order_handover_partial",
    "Emissary.Stream.C08_pending_buffer_bounded"
   ],
   "note": "violated under reordering before accept; proved for in-order arrival, plus the buffer bound"
  },
  {
   "property": "C09",
   "status": "partial",
   "theorems": [
    "Emissary.Listener.C09_handed_sockets_were_admitted",
    "Emissary.Listener.C09_accept_serves_one_stream",
    "Emissary.Listener.C09_pop_never_panics",
    "Emissary.Listener.C09_forward_excludes_accept",
    "Emissary.Listener.C09_refused_request_changes_nothing",
    "Emissary.Listener.C09_accepts_served_in_order",
    "Emissary.Listener.C09_forward_gets_every_stream_partial",
    "Emissary.Listener.C09_late_accept_kills_listener_violated",
    "Emissary.Listener.C09_failed_forward_kills_listener_violated",
    "Emissary.Listener.C09_failed_accept_blocks_forward_violated"
   ],
   "note": "violated: an accept answer arriving after a forward was admitted, or a failed forward answer, kills the listener; exclusion, single use, order and no-panic are proved for every history"
  },
  {
   "property": "C10",
   "status": "proved",
   "theorems": [
    "Emissary.Mgr.C10_packets_reach_only_their_stream",
    "Emissary.Mgr.C10_inbound_streams_are_authenticated",
    "Emissary.Mgr.C10_unknown_packet_ignored",
    "Emissary.Mgr.C10_unsigned_syn_ignored"
   ],
   "note": ""
  },
  {
   "property": "C11",
   "status": "partial",
   "theorems": [
    "Emissary.Pkt.C11_packet_roundtrip",
    "Emissary.Pkt.C11_signed_packet_roundtrip",
    "Emissary.Pkt.C11_peek_agrees",
    "Emissary.Pkt.C11_signature_lost_without_destination_violated"
   ],
   "note": "round trip for every packet whose signature, if any, comes with the destination; violated otherwise: a signature without destination is read as empty"
  },
  {
   "property": "C12",
   "status": "partial",
   "theorems": [
    "Emissary.Tunnel.C12_reassembly_any_order",
    "Emissary.Tunnel.C12_message_survives_outbound_tunnel_partial",
    "Emissary.Tunnel.C12_message_survives_inbound_tunnel_partial",
    "Emissary.Tunnel.C12_oversized_message_never_delivered_violated"
   ],
   "note": "proved end to end (cut, layers, reassembly in any order) up to 64 pieces; violated for every larger message: fragment numbers wrap silently and nothing is delivered"
  },
  {
   "property": "C13",
   "status": "proved",
   "theorems": [
    "Emissary.Tunnel.C13_tunnel_data_fixed_size"
   ],
   "note": ""
  },
  {
   "property": "C14",
   "status": "partial",
   "theorems": [
    "Emissary.Tunnel.C14_only_complete_messages_partial",
    "Emissary.Tunnel.C14_missing_fragment_accepted_violated",
    "Emissary.Tunnel.C14_incomplete_message_never_dropped_violated"
   ],
   "note": "violated with inconsistent fragment numbers, and incomplete messages are never dropped; otherwise what is handed over is exactly fragments 0..n"
  },
  {
   "property": "C15",
   "status": "proved",
   "theorems": [
    "Emissary.Tunnel.C15_whole_payload_consumed",
    "Emissary.Tunnel.C15_built_payload_is_found",
    "Emissary.Tunnel.C15_accepted_payload_is_checksummed"
   ],
   "note": ""
  },
  {
   "property": "C16",
   "status": "proved",
   "theorems": [
    "Emissary.I2np.C16_short_header_roundtrip",
    "Emissary.I2np.C16_short_header_parse_exact",
    "Emissary.I2np.C16_short_header_empty_payload_rejected"
   ],
   "note": ""
  },
  {
   "property": "C17",
   "status": "proved",
   "theorems": [
    "Emissary.I2np.C17_standard_header_roundtrip",
    "Emissary.I2np.C17_standard_header_parse_exact"
   ],
   "note": ""
  },
  {
   "property": "C18",
   "status": "partial",
   "theorems": [
    "Emissary.I2np.C18_short_header_size_wraps_violated",
    "Emissary.I2np.C18_standard_header_size_wraps_violated",
    "Emissary.I2np.C18_size_field_exact_up_to_limit_partial"
   ],
   "note": "violated: payloads over the 16-bit size field are truncated silently; proved exact up to the limit"
  },
  {
   "property": "C19",
   "status": "proved",
   "theorems": [
    "Emissary.I2np.C19_tunnel_gateway_roundtrip",
    "Emissary.I2np.C19_delivery_status_roundtrip",
    "Emissary.I2np.C19_search_reply_roundtrip",
    "Emissary.I2np.C19_search_reply_parse_exact"
   ],
   "note": ""
  },
  {
   "property": "C20",
   "status": "proved",
   "theorems": [
    "Emissary.I2np.C20_database_lookup_roundtrip",
    "Emissary.I2np.C20_database_lookup_too_many_excluded"
   ],
   "note": ""
  },
  {
   "property": "C21",
   "status": "proved",
   "theorems": [
    "Emissary.I2np.C21_store_router_info_roundtrip",
    "Emissary.I2np.C21_store_lease_set_roundtrip",
    "Emissary.I2np.C21_extract_raw_router_info",
    "Emissary.I2np.C21_extract_raw_lease_set",
    "Emissary.I2np.C21_store_type_reserved_bits",
    "Emissary.I2np.C21_store_type_values"
   ],
   "note": ""
  },
  {
   "property": "C22",
   "status": "proved",
   "theorems": [
    "Emissary.Garlic.C22_garlic_message_roundtrip",
    "Emissary.Garlic.C22_padding_block_parsed",
    "Emissary.Garlic.C22_ack_block_exact",
    "Emissary.Garlic.C22_garlic_tag"
   ],
   "note": "every block kind the builder supports; padding parsed"
  },
  {
   "property": "C23",
   "status": "proved",
   "theorems": [
    "Emissary.Build.C23_short_record_size",
    "Emissary.Build.C23_short_record_roundtrip",
    "Emissary.Build.C23_build_message_layout"
   ],
   "note": ""
  },
  {
   "property": "C24",
   "status": "proved",
   "theorems": [
    "Emissary.Prim.C24_string_roundtrip",
    "Emissary.Prim.C24_string_parse_exact",
    "Emissary.Prim.C24_checked_string_roundtrip"
   ],
   "note": ""
  },
  {
   "property": "C25",
   "status": "proved",
   "theorems": [
    "Emissary.Prim.C25_mapping_layout",
    "Emissary.Prim.C25_mappings_roundtrip",
    "Emissary.Prim.C25_into_hashmap_last_wins",
    "Emissary.Prim.C25_announced_size_overrun_violated"
   ],
   "note": "round trip; the announced size is not enforced (shown separately)"
  },
  {
   "property": "C26",
   "status": "proved",
   "theorems": [
    "Emissary.Prim.C26_destination_parse_exact",
    "Emissary.Prim.C26_new_destination_roundtrip"
   ],
   "note": ""
  },
  {
   "property": "C27",
   "status": "proved",
   "theorems": [
    "Emissary.Prim.C27_router_identity_parse_exact",
    "Emissary.Prim.C27_new_identity_roundtrip"
   ],
   "note": ""
  },
  {
   "property": "C28",
   "status": "partial",
   "theorems": [
    "Emissary.Prim.C28_built_lease_set_roundtrip_partial",
    "Emissary.Prim.C28_parsed_lease_set_expiry_changes_violated"
   ],
   "note": "violated: the header expiration is an offset in built lease sets and an absolute time in parsed ones; the rest round-trips"
  },
  {
   "property": "C29",
   "status": "proved",
   "theorems": [
    "Emissary.Prim.C29_lease_set_signature"
   ],
   "note": ""
  },
  {
   "property": "C30",
   "status": "proved",
   "theorems": [
    "Emissary.Ntcp2.C30_options_extra_skipped",
    "Emissary.Ntcp2.C30_termination_extra_skipped",
    "Emissary.Ntcp2.C30_blocks_roundtrip",
    "Emissary.Ntcp2.C30_whole_frame_consumed",
    "Emissary.Ntcp2.C30_complete",
    "Emissary.Ntcp2.C30_emitted_blocks"
   ],
   "note": ""
  },
  {
   "property": "C31",
   "status": "proved",
   "theorems": [
    "Emissary.Ntcp2.C31_initiator_options_roundtrip",
    "Emissary.Ntcp2.C31_responder_options_roundtrip"
   ],
   "note": ""
  },
  {
   "property": "C32",
   "status": "partial",
   "theorems": [
    "Emissary.Ntcp2.C32_termination_reason",
    "Emissary.Ntcp2.C32_segmentation_independent_partial",
    "Emissary.Ntcp2.C32_two_segmentations_agree_partial",
    "Emissary.Ntcp2.C32_unparseable_frame_desynchronises_violated"
   ],
   "note": "violated by authentic frames that do not parse (the reader loses frame alignment, in a way that depends on segmentation); otherwise proved for every segmentation"
  },
  {
   "property": "C33",
   "status": "proved",
   "theorems": [
    "Emissary.Ntcp2.C33_lengths_stay_synchronised"
   ],
   "note": ""
  },
  {
   "property": "C34",
   "status": "proved",
   "theorems": [
    "Emissary.Ntcp2.C34_nonces_never_repeat",
    "Emissary.Ntcp2.C34_exhaustion_is_an_error"
   ],
   "note": ""
  },
  {
   "property": "C35",
   "status": "partial",
   "theorems": [
    "Emissary.Ssu2.C35_acks_exactly_received_partial",
    "Emissary.Ssu2.C35_top_range_sound_partial",
    "Emissary.Ssu2.C35_order_independent",
    "Emissary.Ssu2.C35_long_gap_acks_unreceived_violated"
   ],
   "note": "violated: a gap or run of more than 255 packets makes the block acknowledge packets that never arrived; exact otherwise, and the top range is always sound"
  },
  {
   "property": "C36",
   "status": "proved",
   "theorems": [
    "Emissary.Ssu2.C36_reassembly_any_order"
   ],
   "note": ""
  },
  {
   "property": "C37",
   "status": "partial",
   "theorems": [
    "Emissary.Ssu2.C37_fresh_iff_not_accepted_recently_partial",
    "Emissary.Ssu2.C37_fresh_accepted",
    "Emissary.Ssu2.C37_duplicate_in_generation_rejected",
    "Emissary.Ssu2.C37_rejected_not_remembered_violated"
   ],
   "note": "violated: a duplicate rejected in one generation is not remembered in the next; fresh identifiers are never rejected and accepted ones are remembered for two generations"
  },
  {
   "property": "C38",
   "status": "partial",
   "theorems": [
    "Emissary.Ssu2.C38_blocks_roundtrip",
    "Emissary.Ssu2.C38_serializer",
    "Emissary.Ssu2.C38_other_types",
    "Emissary.Ssu2.C38_accepts_exactly_block_sequences",
    "Emissary.Ssu2.C38_release_never_panics_partial",
    "Emissary.Ssu2.C38_checked_panics_iff",
    "Emissary.Ssu2.C38_panic_violated",
    "Emissary.Ssu2.C38_size_field_not_honoured_violated"
   ],
   "note": "violated in builds with overflow checks and debug assertions, and the size field of an ACK block is ignored; the parser accepts exactly the block sequences, inverts the serializer and never panics in release builds"
  },
  {
   "property": "C39",
   "status": "proved",
   "theorems": [
    "Emissary.Ssu2.C39_no_false_negatives",
    "Emissary.Ssu2.C39_fresh_filter_accepts"
   ],
   "note": ""
  },
  {
   "property": "C40",
   "status": "proved",
   "theorems": [
    "Emissary.Netdb.C40_symmetric",
    "Emissary.Netdb.C40_zero_iff_equal",
    "Emissary.Netdb.C40_triangle",
    "Emissary.Netdb.C40_unidirectional",
    "Emissary.Netdb.C40_first_byte_decides"
   ],
   "note": ""
  },
  {
   "property": "C41",
   "status": "proved",
   "theorems": [
    "Emissary.Netdb.C41_buckets_bounded_and_distinct",
    "Emissary.Netdb.C41_eviction",
    "Emissary.Netdb.C41_responsive_router_stays"
   ],
   "note": ""
  },
  {
   "property": "C42",
   "status": "partial",
   "theorems": [
    "Emissary.Netdb.C42_lookup_returns_nearest_in_order",
    "Emissary.Netdb.C42_closest_is_lookup",
    "Emissary.Netdb.C42_results_distinct_partial",
    "Emissary.Netdb.C42_router_returned_twice_violated",
    "Emissary.Netdb.C42_get_closest",
    "Emissary.Netdb.C42_get_n_closest"
   ],
   "note": "Order, completeness and filtering are proved for every table; distinctness holds unless the table holds the router at distance 1 from the local one, which every lookup near it returns twice (bucket 0 is visited twice): proved as C42_router_returned_twice_violated."
  },
  {
   "property": "C43",
   "status": "proved",
   "theorems": [
    "Emissary.TBuild.C43_limit_holds",
    "Emissary.TBuild.C43_disabled_has_none",
    "Emissary.TBuild.C43_none_accepted_after_shutdown",
    "Emissary.TBuild.C43_accepts_only_with_room"
   ],
   "note": "that a refusal carries code 30 is part of C101"
  },
  {
   "property": "C44",
   "status": "proved",
   "theorems": [
    "Emissary.Routing.C44_ids_are_not_taken_over",
    "Emissary.Routing.C44_messages_go_to_the_owner",
    "Emissary.Routing.C44_dropped_receiver_is_noticed",
    "Emissary.Routing.C44_owner_receives_in_order"
   ],
   "note": ""
  },
  {
   "property": "C45",
   "status": "proved",
   "theorems": [
    "Emissary.Routing.C45_id_given_while_free",
    "Emissary.Routing.C45_listener_hears_the_first_message_once",
    "Emissary.Routing.C45_other_messages_go_to_transit"
   ],
   "note": ""
  },
  {
   "property": "C46",
   "status": "proved",
   "theorems": [
    "Emissary.Tunnel.C46_outbound_layers_cancel",
    "Emissary.Tunnel.C46_inbound_layers_cancel",
    "Emissary.Tunnel.C46_forwarded_size"
   ],
   "note": ""
  },
  {
   "property": "C47",
   "status": "partial",
   "theorems": [
    "Emissary.Profile.C47_counts",
    "Emissary.Profile.C47_exact_partial",
    "Emissary.Profile.C47_pool_shutdown_violated"
   ],
   "note": "in every history the counts are those of the active tunnels plus the tunnels lost when a pool shut down or an id was used twice; exact if neither happens; after a pool with tunnels shuts down the counts stay too high for ever (proved)"
  },
  {
   "property": "C48",
   "status": "partial",
   "theorems": [
    "Emissary.Profile.C48_subnets",
    "Emissary.Profile.C48_secure_partial",
    "Emissary.Profile.C48_same_router_violated",
    "Emissary.Profile.C48_insecure_partial",
    "Emissary.Profile.C48_insecure_violated"
   ],
   "note": "each hop has its own subnet in which it has an address; distinct if no router has addresses in two subnets; a router with two subnets can be chosen twice, and insecure mode can choose the same router twice (proved)"
  },
  {
   "property": "C49",
   "status": "partial",
   "theorems": [
    "Emissary.Profile.C49_declining_partial",
    "Emissary.Profile.C49_unreachable_violated",
    "Emissary.Profile.C49_times_recorded_partial",
    "Emissary.Profile.C49_counters_partial",
    "Emissary.Profile.C49_failing_partial",
    "Emissary.Profile.C49_standing_partial"
   ],
   "note": "violated for unreachability: a recent dial failure counts as reachable and an old one as unreachable; declining and what is recorded are proved"
  },
  {
   "property": "C50",
   "status": "partial",
   "theorems": [
    "Emissary.Profile.C50_known_routers_partial",
    "Emissary.Profile.C50_new_routers_violated",
    "Emissary.Profile.C50_fresh_partial",
    "Emissary.Profile.C50_never_lost_partial",
    "Emissary.Profile.C50_two_buckets_violated",
    "Emissary.Profile.C50_maintained_partial"
   ],
   "note": "violated: routers without statistics are left out once others have some, and a re-added router is in two buckets; proved for routers with statistics, for fresh storages, over histories and after maintenance"
  },
  {
   "property": "C51",
   "status": "partial",
   "theorems": [
    "Emissary.RPath.C51_outbound_choice",
    "Emissary.RPath.C51_lease_choice",
    "Emissary.RPath.C51_expiring_partial",
    "Emissary.RPath.C51_lease_partial",
    "Emissary.RPath.C51_dead_end_violated",
    "Emissary.RPath.C51_expired_lease_violated",
    "Emissary.RPath.C51_collision_violated",
    "Emissary.RPath.C51_faulty_last",
    "Emissary.RPath.C51_outbound_partial",
    "Emissary.RPath.C51_no_panic_partial"
   ],
   "note": "choice of tunnels proved; the outbound tunnel of a path is live if tunnels are announced in order, ids of leases and outbound tunnels differ and no event was dropped from a full queue; the lease has 30 s left unless a request for a new path failed: then (violated) the old path stays and its lease may have expired for any time; violated too: a lease with the id of the outbound tunnel makes the next request panic"
  },
  {
   "property": "C52",
   "status": "partial",
   "theorems": [
    "Emissary.Routing.C52_batch_is_partitioned_partial",
    "Emissary.Routing.C52_every_message_delivered_in_order_partial",
    "Emissary.Routing.C52_full_queue_loses_messages_violated"
   ],
   "note": "violated when a subsystem falls behind: a batch for a full queue is lost; proved as long as there is room"
  },
  {
   "property": "C53",
   "status": "proved",
   "theorems": [
    "Emissary.Routing.C53_complete_iff_every_subsystem_finished"
   ],
   "note": "the event manager, which can also end the router, is not modelled"
  },
  {
   "property": "C54",
   "status": "proved",
   "theorems": [
    "Emissary.Ecies.C54_counts",
    "Emissary.Ecies.C54_single_use"
   ],
   "note": "for tags that are generated once; the number of times a tag is found never exceeds the number of times it was generated"
  },
  {
   "property": "C55",
   "status": "proved",
   "theorems": [
    "Emissary.Ratchet.C55_increasing",
    "Emissary.Ratchet.C55_stops",
    "Emissary.Ratchet.C55_stops_ratchet",
    "Emissary.Ratchet.C55_keys"
   ],
   "note": ""
  },
  {
   "property": "C56",
   "status": "partial",
   "theorems": [
    "Emissary.Ratchet.C56_no_wrap",
    "Emissary.Ratchet.C56_lockstep_partial",
    "Emissary.Ratchet.C56_terminates_partial",
    "Emissary.Ratchet.C56_advances_partial",
    "Emissary.Ratchet.C56_stale_violated",
    "Emissary.Ratchet.C56_stale_keys_violated",
    "Emissary.Ratchet.C56_duplicate_violated",
    "Emissary.Ratchet.C56_unasked_violated"
   ],
   "note": "lock-step is proved for every schedule in which a waiting sender is not given an answer to an older request; without that condition it is refuted (old key accepted, debug panic or unusable set)"
  },
  {
   "property": "C57",
   "status": "proved",
   "theorems": [
    "Emissary.Prim.C57_published_address_preferred",
    "Emissary.Prim.C57_parse_addresses",
    "Emissary.Prim.C57_router_address_roundtrip",
    "Emissary.Prim.C57_router_info_roundtrip"
   ],
   "note": ""
  },
  {
   "property": "C58",
   "status": "proved",
   "theorems": [
    "Emissary.Prim.C58_router_info_signature"
   ],
   "note": "assumes a signature check that only accepts 64-byte signatures"
  },
  {
   "property": "C59",
   "status": "partial",
   "theorems": [
    "Emissary.Prim.C59_transient_key_is_certified_partial",
    "Emissary.Prim.C59_certified_transient_key_accepted_partial",
    "Emissary.Prim.C59_expired_transient_key_accepted_violated",
    "Emissary.Prim.C59_dsa_destination_never_accepted_violated"
   ],
   "note": "violated: an expired transient key is accepted, and a DSA destination can never certify one"
  },
  {
   "property": "C60",
   "status": "proved",
   "theorems": [
    "Emissary.Prim.C60_lease_set_live_iff",
    "Emissary.Prim.C60_expiration_is_earliest"
   ],
   "note": ""
  },
  {
   "property": "C61",
   "status": "partial",
   "theorems": [
    "Emissary.Garlic.C61_unsupported_block_skipped_partial",
    "Emissary.Garlic.C61_trailing_unsupported_block_drops_message_violated"
   ],
   "note": "violated: an unsupported block at the end of a message makes the whole message unparseable"
  },
  {
   "property": "C62",
   "status": "partial",
   "theorems": [
    "Emissary.Build.C62_variable_record_parsed_partial",
    "Emissary.Build.C62_variable_record_options_rejected_violated"
   ],
   "note": "violated: records whose options mapping takes more than 64 bytes are rejected; proved up to 64"
  },
  {
   "property": "C63",
   "status": "partial",
   "theorems": [
    "Emissary.Mgr.C63_outbound_streams_were_requested_partial",
    "Emissary.Mgr.C63_any_destination_completes_connection_violated"
   ],
   "note": "violated: any destination that knows the id completes the connection; proved that every outbound stream was requested and answered by a signed SYN"
  },
  {
   "property": "C64",
   "status": "partial",
   "theorems": [
    "Emissary.Mgr.C64_active_streams_kept_partial",
    "Emissary.Mgr.C64_remove_session_drops_other_stream_violated",
    "Emissary.Mgr.C64_late_completion_drops_new_stream_violated"
   ],
   "note": "violated by stale ids in remove_session and by late completions; the other operations never unregister a stream"
  },
  {
   "property": "C65",
   "status": "proved",
   "theorems": [
    "Emissary.Mgr.C65_syn_accepted",
    "Emissary.Mgr.C65_syn_waits_for_listener",
    "Emissary.Mgr.C65_syn_ack_completes"
   ],
   "note": ""
  },
  {
   "property": "C66",
   "status": "partial",
   "theorems": [
    "Emissary.Mgr.C66_no_new_streams_while_shutting_down",
    "Emissary.Mgr.C66_shutdown_when_last_stream_finishes_partial",
    "Emissary.Mgr.C66_shutdown_without_streams_waits_for_timer_violated",
    "Emissary.Mgr.C66_stream_opened_after_shutdown_violated"
   ],
   "note": "violated without running streams (60 s timer) and after the forced shutdown (streams accepted); proved when every running stream is registered"
  },
  {
   "property": "C67",
   "status": "partial",
   "theorems": [
    "Emissary.Mgr.C67_repeated_syn_unanswered_violated"
   ],
   "note": "violated: the repeated SYN is ignored"
  },
  {
   "property": "C68",
   "status": "partial",
   "theorems": [
    "Emissary.Ntcp2.C68_only_expired_dropped",
    "Emissary.Ntcp2.C68_in_order_exactly_once_partial",
    "Emissary.Ntcp2.C68_oversized_message_misframed_violated"
   ],
   "note": "proved for messages of at most 65,507 bytes of payload; larger ones are announced with a truncated length"
  },
  {
   "property": "C69",
   "status": "proved",
   "theorems": [
    "Emissary.Mgr.C69_new_stream_takes_free_id"
   ],
   "note": ""
  },
  {
   "property": "C70",
   "status": "proved",
   "theorems": [
    "Emissary.Mgr.C70_connection_attempts_bounded",
    "Emissary.Mgr.C70_unanswered_request_is_rejected"
   ],
   "note": ""
  },
  {
   "property": "C71",
   "status": "partial",
   "theorems": [
    "Emissary.Ssu2.C71_ack_state_unbounded_violated"
   ],
   "note": "violated: the state has one entry for every packet number up to the highest received, so one packet can make it hold 2^32 - 1 entries"
  },
  {
   "property": "C72",
   "status": "partial",
   "theorems": [
    "Emissary.Ssu2.C72_delivered_exactly_once_partial",
    "Emissary.Ssu2.C72_message_lost_violated"
   ],
   "note": "violated: a payload of 1,190 to 1,200 bytes is sent as a single unfinished fragment and never delivered; proved for every other size"
  },
  {
   "property": "C73",
   "status": "proved",
   "theorems": [
    "Emissary.Prim.C73_socket",
    "Emissary.Prim.C73_reachable",
    "Emissary.Prim.C73_capability_letters",
    "Emissary.Prim.C73_speed"
   ],
   "note": ""
  },
  {
   "property": "C74",
   "status": "partial",
   "theorems": [
    "Emissary.Ssu2.C74_data_packet_delivered",
    "Emissary.Ssu2.C74_contents_delivered",
    "Emissary.Ssu2.C74_retry_token_violated",
    "Emissary.Ssu2.C74_retry_token_example_violated"
   ],
   "note": "violated for the token of Retry (byte order reversed); everything else is read back"
  },
  {
   "property": "C75",
   "status": "proved",
   "theorems": [
    "Emissary.Ssu2.C75_handshake_agreement",
    "Emissary.Ssu2.C75_keys_per_specification"
   ],
   "note": ""
  },
  {
   "property": "C76",
   "status": "partial",
   "theorems": [
    "Emissary.Ssu2.C76_datagram_panics_violated",
    "Emissary.Ssu2.C76_long_and_short_datagrams_partial"
   ],
   "note": "violated for 40 to 63 byte datagrams; proved for shorter than 24 and at least 64"
  },
  {
   "property": "C77",
   "status": "partial",
   "theorems": [
    "Emissary.Ssu2.C77_termination_panics_violated"
   ],
   "note": "violated: building the termination packet always panics"
  },
  {
   "property": "C78",
   "status": "partial",
   "theorems": [
    "Emissary.Ssu2.C78_own_key",
    "Emissary.Ssu2.C78_dialled_key_partial",
    "Emissary.Ssu2.C78_only_the_addressee",
    "Emissary.Ssu2.C78_dialled_packet_dropped_violated"
   ],
   "note": "violated for packets of a dialled router that happen to decode under the router's own key; the rest is proved"
  },
  {
   "property": "C79",
   "status": "partial",
   "theorems": [
    "Emissary.Ssu2.C79_impersonation_violated"
   ],
   "note": "violated: the static key is not compared with the router info"
  },
  {
   "property": "C80",
   "status": "partial",
   "theorems": [
    "Emissary.Ssu2.C80_dialled_id_violated"
   ],
   "note": "violated: the local router id is recorded"
  },
  {
   "property": "C81",
   "status": "partial",
   "theorems": [
    "Emissary.Ssu2.C81_bad_packet_ends_dial_violated",
    "Emissary.Ssu2.C81_bad_packet_ends_accept_violated",
    "Emissary.Ssu2.C81_any_error_is_final_violated"
   ],
   "note": "violated: any unexpected packet poisons the handshake"
  },
  {
   "property": "C82",
   "status": "partial",
   "theorems": [
    "Emissary.Ssu2.C82_bounded_retransmission",
    "Emissary.Ssu2.C82_schedules",
    "Emissary.Ssu2.C82_inbound_never_times_out_violated"
   ],
   "note": "violated for a responder waiting for the session request; the retransmission schedules are proved"
  },
  {
   "property": "C83",
   "status": "partial",
   "theorems": [
    "Emissary.Ssu2.C83_any_token_accepted_violated"
   ],
   "note": "violated: any token is accepted"
  },
  {
   "property": "C84",
   "status": "partial",
   "theorems": [
    "Emissary.Ssu2.C84_nonces_distinct_partial",
    "Emissary.Ssu2.C84_nonce_reuse_violated"
   ],
   "note": "violated after 2^32 packets without overflow checks; proved below that"
  },
  {
   "property": "C85",
   "status": "proved",
   "theorems": [
    "Emissary.Ntcp2.C85_handshake_agrees",
    "Emissary.Ntcp2.C85_session_carries_messages"
   ],
   "note": ""
  },
  {
   "property": "C86",
   "status": "proved",
   "theorems": [
    "Emissary.Ntcp2.C86_accepted_router_is_on_network",
    "Emissary.Ntcp2.C86_other_network_or_version_refused",
    "Emissary.Ntcp2.C86_not_dialled"
   ],
   "note": ""
  },
  {
   "property": "C87",
   "status": "partial",
   "theorems": [
    "Emissary.Ntcp2.C87_static_key_not_bound_violated"
   ],
   "note": "violated: the static key of the handshake is not compared with the router info"
  },
  {
   "property": "C88",
   "status": "partial",
   "theorems": [
    "Emissary.Ntcp2.C88_accept_never_panics",
    "Emissary.Ntcp2.C88_dial_never_panics_partial",
    "Emissary.Ntcp2.C88_large_router_info_panics_violated"
   ],
   "note": "accepting never panics; dialling panics with overflow checks if the own router info has 65516 bytes or more"
  },
  {
   "property": "C89",
   "status": "partial",
   "theorems": [
    "Emissary.Ntcp2.C89_stale_request_answered_violated"
   ],
   "note": "violated: neither the time nor earlier requests are looked at"
  },
  {
   "property": "C90",
   "status": "proved",
   "theorems": [
    "Emissary.Netdb.C90_best_floodfills_kept"
   ],
   "note": ""
  },
  {
   "property": "C91",
   "status": "proved",
   "theorems": [
    "Emissary.Transport.C91_at_most_one_connection"
   ],
   "note": ""
  },
  {
   "property": "C92",
   "status": "proved",
   "theorems": [
    "Emissary.Transport.C92_not_dialled_twice_at_once"
   ],
   "note": ""
  },
  {
   "property": "C93",
   "status": "partial",
   "theorems": [
    "Emissary.Transport.C93_locked_out_forever_violated"
   ],
   "note": "violated: a connection we dialled that is turned down because another is open leaves the router marked as pending for good"
  },
  {
   "property": "C94",
   "status": "partial",
   "theorems": [
    "Emissary.Transport.C94_request_starts_a_dial_partial",
    "Emissary.Transport.C94_request_forgotten_violated"
   ],
   "note": "violated if the query channel is full, or after C93; proved otherwise"
  },
  {
   "property": "C95",
   "status": "proved",
   "theorems": [
    "Emissary.Transport.C95_sent_in_order_and_confirmed_when_handed_over"
   ],
   "note": ""
  },
  {
   "property": "C96",
   "status": "proved",
   "theorems": [
    "Emissary.Transport.C96_messages_kept_while_dialling",
    "Emissary.Transport.C96_first_message_dials"
   ],
   "note": ""
  },
  {
   "property": "C97",
   "status": "partial",
   "theorems": [
    "Emissary.Transport.C97_connection_forgotten_violated"
   ],
   "note": "violated: a failure reported while connected makes the manager forget the connection; C96 covers the other histories"
  },
  {
   "property": "C98",
   "status": "partial",
   "theorems": [
    "Emissary.Transport.C98_received_message_partial",
    "Emissary.Transport.C98_peer_message_panics_violated",
    "Emissary.Transport.C98_duplicates_routed_violated"
   ],
   "note": "violated: some message types trip a debug assertion, and the duplicate filter is switched off"
  },
  {
   "property": "C99",
   "status": "partial",
   "theorems": [
    "Emissary.Transport.C99_clove_for_other_router",
    "Emissary.Transport.C99_clove_for_this_router_violated"
   ],
   "note": "violated for cloves addressed to this router"
  },
  {
   "property": "C100",
   "status": "partial",
   "theorems": [
    "Emissary.Transport.C100_send_partial",
    "Emissary.Transport.C100_send_with_feedback_partial",
    "Emissary.Transport.C100_local_feedback_violated"
   ],
   "note": "violated: local messages are confirmed even if they are lost"
  },
  {
   "property": "C101",
   "status": "proved",
   "theorems": [
    "Emissary.TBuild.C101_outbound_build",
    "Emissary.TBuild.C101_inbound_build"
   ],
   "note": "assuming that no record of an earlier hop happens to start with the hash of a later one"
  },
  {
   "property": "C102",
   "status": "proved",
   "theorems": [
    "Emissary.TBuild.C102_tunnels_linked",
    "Emissary.TBuild.C102_outbound_tunnel_carries_messages",
    "Emissary.TBuild.C102_inbound_tunnel_carries_messages"
   ],
   "note": ""
  },
  {
   "property": "C103",
   "status": "partial",
   "theorems": [
    "Emissary.TBuild.C103_failure_report_violated",
    "Emissary.TBuild.C103_failure_report_mirrored",
    "Emissary.TBuild.C103_failure_report_partial"
   ],
   "note": "violated: the answers are given to the hops in reverse order; fair when they read the same both ways"
  },
  {
   "property": "C104",
   "status": "proved",
   "theorems": [
    "Emissary.TBuild.C104_tunnels_reachable"
   ],
   "note": "provided other parts of the router do not remove ids of transit tunnels"
  },
  {
   "property": "C105",
   "status": "partial",
   "theorems": [
    "Emissary.TBuild.C105_short_garlic_violated",
    "Emissary.TBuild.C105_short_garlic_reply_violated",
    "Emissary.TBuild.C105_other_messages_partial",
    "Emissary.TBuild.C105_other_replies_partial"
   ],
   "note": "violated by garlic messages shorter than 12 bytes (log line, slice); proved for all others"
  },
  {
   "property": "C106",
   "status": "partial",
   "theorems": [
    "Emissary.TBuild.C106_reply_options_violated"
   ],
   "note": "violated for every request: the length is written at the offset of an unstripped record"
  },
  {
   "property": "C107",
   "status": "partial",
   "theorems": [
    "Emissary.TBuild.C107_expired_request_violated",
    "Emissary.TBuild.C107_replayed_request_violated"
   ],
   "note": "violated for every request"
  },
  {
   "property": "C108",
   "status": "partial",
   "theorems": [
    "Emissary.Profile.C108_never_fails",
    "Emissary.Profile.C108_lookup",
    "Emissary.Profile.C108_clock_violated"
   ],
   "note": "proved for every history and total filter; violated if the clock is set back (lookups subtract times)"
  },
  {
   "property": "C109",
   "status": "proved",
   "theorems": [
    "Emissary.Profile.C109_profile_is_history"
   ],
   "note": ""
  },
  {
   "property": "C110",
   "status": "proved",
   "theorems": [
    "Emissary.TBuild.C110_established_iff_all_agree",
    "Emissary.TBuild.C110_no_reply_no_tunnel",
    "Emissary.TBuild.C110_failure_names_someone"
   ],
   "note": ""
  },
  {
   "property": "C111",
   "status": "proved",
   "theorems": [
    "Emissary.TBuild.C111_long_request_answered"
   ],
   "note": ""
  },
  {
   "property": "C112",
   "status": "proved",
   "theorems": [
    "Emissary.Profile.C112_backup_complete"
   ],
   "note": ""
  },
  {
   "property": "C113",
   "status": "proved",
   "theorems": [
    "Emissary.Profile.C113_enough",
    "Emissary.Profile.C113_total",
    "Emissary.Profile.C113_failing_last",
    "Emissary.Profile.C113_ready",
    "Emissary.Profile.C113_records"
   ],
   "note": "secure mode"
  },
  {
   "property": "C114",
   "status": "proved",
   "theorems": [
    "Emissary.Ecies.C114_request_spec",
    "Emissary.Ecies.C114_request",
    "Emissary.Ecies.C114_established",
    "Emissary.Ecies.C114_numbers",
    "Emissary.Ecies.C114_recipient"
   ],
   "note": "for lawful sealing and symmetric Diffie-Hellman; Elligator2 is assumed to decode what it encodes for the keys drawn; no two tags watched for are equal for the last part"
  },
  {
   "property": "C115",
   "status": "partial",
   "theorems": [
    "Emissary.Ecies.C115_sent_partial",
    "Emissary.Ecies.C115_delivery_partial",
    "Emissary.Ecies.C115_readable_partial",
    "Emissary.Ecies.C115_damaged_partial",
    "Emissary.Ecies.C115_unreadable_partial",
    "Emissary.Ecies.C115_deaf_violated",
    "Emissary.Ecies.C115_encrypt_partial",
    "Emissary.Ecies.C115_initiator_partial"
   ],
   "note": "proved for one tag set (below the ratchet threshold), for sending and for receiving in any order with any losses within the window, and over any number of ratchets for messages in order (C271); violated: after as many consecutive losses as tags are watched for, the session is deaf for good; missing: losses across a ratchet"
  },
  {
   "property": "C116",
   "status": "partial",
   "theorems": [
    "Emissary.Ecies.C116_replay_violated",
    "Emissary.Ecies.C116_replay_keeps_partial"
   ],
   "note": "violated: an accepted request is accepted again and its contents are delivered again; tags of established sessions are used once (C54)"
  },
  {
   "property": "C117",
   "status": "partial",
   "theorems": [
    "Emissary.Ecies.C117_left_violated",
    "Emissary.Ecies.C117_late_reply_violated",
    "Emissary.Ecies.C117_damaged_reply_violated",
    "Emissary.Ecies.C117_damaged_first_violated",
    "Emissary.Ecies.C117_broken_violated",
    "Emissary.Ecies.C117_broken_receive_violated"
   ],
   "note": "violated: a reply or first message that cannot be decrypted, or a reply to an attempt that was given up, breaks the pending session, which refuses everything until it expires; damage to established sessions is harmless (C115_damaged_partial)"
  },
  {
   "property": "C118",
   "status": "partial",
   "theorems": [
    "Emissary.Ecies.C118_short_violated",
    "Emissary.Ecies.C118_ack_violated",
    "Emissary.Ecies.C118_short_reply_violated",
    "Emissary.Ecies.C118_release_partial"
   ],
   "note": "violated: messages under 12 bytes abort; with assertions on, acknowledgments in requests and short replies too; proved without assertions for messages of at least 12 bytes in every reachable state, if every representative decodes"
  },
  {
   "property": "C119",
   "status": "partial",
   "theorems": [
    "Emissary.Ecies.C119_conversation_partial",
    "Emissary.Ecies.C119_established_partial",
    "Emissary.Ecies.C119_first_messages_partial",
    "Emissary.Ecies.C119_simultaneous_violated"
   ],
   "note": "violated if both open at the same time: no session until the attempts expire; proved: every message sent before a session exists is delivered with the lease set; if one side opens, with any number of requests and replies, whichever arrive first, a session is established both ways, and every conversation up to the first ratchet is delivered in any order, and over any number of ratchets in order (C271)"
  },
  {
   "property": "C120",
   "status": "partial",
   "theorems": [
    "Emissary.Ecies.C120_restart_violated"
   ],
   "note": "violated: the peer goes on with the old session"
  },
  {
   "property": "C121",
   "status": "partial",
   "theorems": [
    "Emissary.Ecies.C121_bundled_partial",
    "Emissary.Ecies.C121_older_ack_violated",
    "Emissary.Ecies.C121_publish_partial"
   ],
   "note": "violated: an acknowledgment of an older lease set cancels the newer one; proved that messages carry the newest one until then, and that publishing sends it if and only if no acknowledgment is awaited"
  },
  {
   "property": "C122",
   "status": "partial",
   "theorems": [
    "Emissary.Ecies.C122_kept_partial",
    "Emissary.Ecies.C122_sending_violated"
   ],
   "note": "violated: sessions that only send are dropped, without an event; proved that recent receipt or sending of the lease set keeps a session"
  },
  {
   "property": "C123",
   "status": "partial",
   "theorems": [
    "Emissary.Ecies.C123_tags_partial",
    "Emissary.Ecies.C123_later_reply_violated"
   ],
   "note": "violated from the seventeenth reply on; the tags of the first ones are watched for"
  },
  {
   "property": "C124",
   "status": "proved",
   "theorems": [
    "Emissary.RPath.C124_gives_up",
    "Emissary.RPath.C124_asks"
   ],
   "note": ""
  },
  {
   "property": "C125",
   "status": "proved",
   "theorems": [
    "Emissary.RPath.C125_one_query",
    "Emissary.RPath.C125_answered"
   ],
   "note": ""
  },
  {
   "property": "C126",
   "status": "partial",
   "theorems": [
    "Emissary.RPath.C126_handle_fresh",
    "Emissary.RPath.C126_copies_violated",
    "Emissary.RPath.C126_fresh"
   ],
   "note": "violated: every store of the same lease set is kept again until it expires; proved: only announced and unexpired leases are kept"
  },
  {
   "property": "C127",
   "status": "proved",
   "theorems": [
    "Emissary.Ecies.C127_tags",
    "Emissary.Ecies.C127_session"
   ],
   "note": "reply tags of an idle session that is dropped by the first maintenance after ten minutes are not among those forgotten"
  },
  {
   "property": "C128",
   "status": "partial",
   "theorems": [
    "Emissary.PoolCtx.C128_once",
    "Emissary.PoolCtx.C128_right",
    "Emissary.PoolCtx.C128_reply",
    "Emissary.PoolCtx.C128_garlic",
    "Emissary.PoolCtx.C128_owner",
    "Emissary.PoolCtx.C128_short_garlic_violated",
    "Emissary.PoolCtx.C128_safe_partial"
   ],
   "note": "deliveries proved for all histories; violated: a garlic message of less than twelve bytes panics; that nothing else does is proved for release builds"
  },
  {
   "property": "C129",
   "status": "partial",
   "theorems": [
    "Emissary.Pool.C129_late_violated",
    "Emissary.Pool.C129_bound_partial"
   ],
   "note": "proved if nothing is late by more than fifteen seconds; violated without: an inbound tunnel that ends before its rebuild timer is seen makes the pool build one tunnel too many for good"
  },
  {
   "property": "C130",
   "status": "proved",
   "theorems": [
    "Emissary.Pool.C130_total",
    "Emissary.Pool.C130_refill",
    "Emissary.Pool.C130_ten_seconds"
   ],
   "note": ""
  },
  {
   "property": "C131",
   "status": "partial",
   "theorems": [
    "Emissary.Pool.C131_order",
    "Emissary.Pool.C131_view_partial",
    "Emissary.Pool.C131_lost_violated"
   ],
   "note": "proved while no event was lost; violated: an event is lost for good when the owner's queue of 64 is full"
  },
  {
   "property": "C132",
   "status": "partial",
   "theorems": [
    "Emissary.Pool.C132_table",
    "Emissary.Pool.C132_shutdown_violated"
   ],
   "note": "proved while the pool runs; violated on shutdown: tunnels being built stay in the routing table and all tunnels in the selector"
  },
  {
   "property": "C133",
   "status": "proved",
   "theorems": [
    "Emissary.Pool.C133_no_panic"
   ],
   "note": ""
  },
  {
   "property": "C134",
   "status": "partial",
   "theorems": [
    "Emissary.Pool.C134_crash_violated",
    "Emissary.Pool.C134_runs_partial"
   ],
   "note": "proved if no inbound tunnel panics; violated: a panic of one inbound tunnel's task silently ends the pool"
  },
  {
   "property": "C135",
   "status": "proved",
   "theorems": [
    "Emissary.NetdbRun.C135_once",
    "Emissary.NetdbRun.C135_in_time"
   ],
   "note": ""
  },
  {
   "property": "C136",
   "status": "partial",
   "theorems": [
    "Emissary.NetdbRun.C136_mismatch_violated",
    "Emissary.NetdbRun.C136_overwrite_violated",
    "Emissary.NetdbRun.C136_busy_violated",
    "Emissary.NetdbRun.C136_cause_partial"
   ],
   "note": "violated: a store of the other kind, or a fetch for the same key, cancels a query, and a request for a key that is being fetched is cancelled at once; proved: nothing else cancels one"
  },
  {
   "property": "C137",
   "status": "partial",
   "theorems": [
    "Emissary.NetdbRun.C137_violated",
    "Emissary.NetdbRun.C137_source_partial"
   ],
   "note": "violated: whatever lease set is stored under the key is the answer, even of another destination or expired; proved: an answer was stored under the key after the request"
  },
  {
   "property": "C138",
   "status": "partial",
   "theorems": [
    "Emissary.NetdbRun.C138_lease_set",
    "Emissary.NetdbRun.C138_router_info_violated",
    "Emissary.NetdbRun.C138_first"
   ],
   "note": "proved for lease sets; violated for router infos"
  },
  {
   "property": "C139",
   "status": "partial",
   "theorems": [
    "Emissary.NetdbRun.C139_dial_once",
    "Emissary.NetdbRun.C139_kept",
    "Emissary.NetdbRun.C139_flush",
    "Emissary.NetdbRun.C139_connected_partial",
    "Emissary.NetdbRun.C139_answer_violated"
   ],
   "note": "violated for direct answers to lookups, which are lost without a connection; all else proved"
  },
  {
   "property": "C140",
   "status": "partial",
   "theorems": [
    "Emissary.NetdbRun.C140_lease_set",
    "Emissary.NetdbRun.C140_router_info",
    "Emissary.NetdbRun.C140_exploration",
    "Emissary.NetdbRun.C140_not_floodfill",
    "Emissary.NetdbRun.C140_any_violated"
   ],
   "note": "violated for lookups that do not say what they look for, which are not answered; all other lookups proved"
  },
  {
   "property": "C141",
   "status": "partial",
   "theorems": [
    "Emissary.NetdbRun.C141_stored",
    "Emissary.NetdbRun.C141_expired",
    "Emissary.NetdbRun.C141_served_partial",
    "Emissary.NetdbRun.C141_pruned",
    "Emissary.NetdbRun.C141_early_violated",
    "Emissary.NetdbRun.C141_replaced_violated"
   ],
   "note": "violated: dropped when the first lease expires, and replaced by older lease sets or those of other destinations; proved: served until the first expiration"
  },
  {
   "property": "C142",
   "status": "partial",
   "theorems": [
    "Emissary.NetdbRun.C142_accepted_partial",
    "Emissary.NetdbRun.C142_forever_violated",
    "Emissary.NetdbRun.C142_foreign_violated"
   ],
   "note": "violated: never removed, and stored under any key; proved: only recent ones of this network are accepted"
  },
  {
   "property": "C143",
   "status": "partial",
   "theorems": [
    "Emissary.NetdbRun.C143_checked_partial",
    "Emissary.NetdbRun.C143_query_violated",
    "Emissary.NetdbRun.C143_age_violated"
   ],
   "note": "violated for answers to queries (no check) and fetched ones (age); proved for the rest"
  },
  {
   "property": "C144",
   "status": "proved",
   "theorems": [
    "Emissary.NetdbRun.C144_ready"
   ],
   "note": ""
  },
  {
   "property": "C145",
   "status": "proved",
   "theorems": [
    "Emissary.NetdbRun.C145_fair",
    "Emissary.NetdbRun.C145_live"
   ],
   "note": ""
  },
  {
   "property": "C146",
   "status": "partial",
   "theorems": [
    "Emissary.NetdbRun.C146_interval",
    "Emissary.NetdbRun.C146_interval_violated",
    "Emissary.NetdbRun.C146_explores",
    "Emissary.NetdbRun.C146_floodfill",
    "Emissary.NetdbRun.C146_fetches"
   ],
   "note": "violated: the two intervals are swapped; the rest proved"
  },
  {
   "property": "C147",
   "status": "partial",
   "theorems": [
    "Emissary.NetdbRun.C147_asked_partial",
    "Emissary.NetdbRun.C147_early_violated"
   ],
   "note": "violated: the timer of an answered lookup ends a later one for the same key; proved: only floodfills that were asked are charged"
  },
  {
   "property": "C148",
   "status": "partial",
   "theorems": [
    "Emissary.NetdbRun.C148_silent",
    "Emissary.NetdbRun.C148_refused",
    "Emissary.NetdbRun.C148_flooded",
    "Emissary.NetdbRun.C148_published",
    "Emissary.NetdbRun.C148_twice_violated"
   ],
   "note": "violated: the same floodfill may be sent a record twice; the rest proved"
  },
  {
   "property": "C149",
   "status": "proved",
   "theorems": [
    "Emissary.Dest.C149_one",
    "Emissary.Dest.C149_status",
    "Emissary.Dest.C149_answered",
    "Emissary.Dest.C149_tries",
    "Emissary.Dest.C149_outcome"
   ],
   "note": ""
  },
  {
   "property": "C150",
   "status": "partial",
   "theorems": [
    "Emissary.Dest.C150_no_panic",
    "Emissary.Dest.C150_debug_violated",
    "Emissary.Dest.C150_latest",
    "Emissary.Dest.C150_known",
    "Emissary.Dest.C150_send",
    "Emissary.Dest.C150_announced"
   ],
   "note": "violated in debug builds: a short data message stops the program (C150_debug_violated); the rest is proved"
  },
  {
   "property": "C151",
   "status": "partial",
   "theorems": [
    "Emissary.Dest.C151_conserved",
    "Emissary.Dest.C151_released",
    "Emissary.Dest.C151_overtaken_violated",
    "Emissary.Dest.C151_stuck_violated"
   ],
   "note": "violated: later messages overtake (C151_overtaken_violated), and messages can wait although the remote is reachable (C151_stuck_violated); conservation and release are proved"
  },
  {
   "property": "C152",
   "status": "partial",
   "theorems": [
    "Emissary.Dest.C152_signed_partial",
    "Emissary.Dest.C152_stale_violated",
    "Emissary.Dest.C152_foreign_violated"
   ],
   "note": "violated: expired lease sets replace valid ones, and answers may be of someone else; proved: messages change it only to one the remote signed"
  },
  {
   "property": "C153",
   "status": "partial",
   "theorems": [
    "Emissary.Dest.C153_kept_partial",
    "Emissary.Dest.C153_refreshed_violated"
   ],
   "note": "violated: an answer of the database forgets earlier leases; proved for replacements by the remote"
  },
  {
   "property": "C154",
   "status": "proved",
   "theorems": [
    "Emissary.Dest.C154_messages"
   ],
   "note": ""
  },
  {
   "property": "C155",
   "status": "partial",
   "theorems": [
    "Emissary.Dest.C155_told_partial",
    "Emissary.Dest.C155_asked_partial",
    "Emissary.Dest.C155_routes_partial",
    "Emissary.Dest.C155_dropped_violated"
   ],
   "note": "violated: no query and no answer while the known lease set is valid; proved: the end of a query answers all"
  },
  {
   "property": "C156",
   "status": "proved",
   "theorems": [
    "Emissary.Publish.C156_unpublished"
   ],
   "note": ""
  },
  {
   "property": "C157",
   "status": "proved",
   "theorems": [
    "Emissary.Publish.C157_closest",
    "Emissary.Publish.C157_current",
    "Emissary.Publish.C157_known",
    "Emissary.Publish.C157_learned",
    "Emissary.Publish.C157_remembered"
   ],
   "note": ""
  },
  {
   "property": "C158",
   "status": "proved",
   "theorems": [
    "Emissary.Publish.C158_paced",
    "Emissary.Publish.C158_started"
   ],
   "note": "restricted to histories without new tunnels, as the claim says; an example shows that new tunnels break the pace"
  },
  {
   "property": "C159",
   "status": "partial",
   "theorems": [
    "Emissary.Publish.C159_confirmed_partial",
    "Emissary.Publish.C159_forged_violated",
    "Emissary.Publish.C159_other"
   ],
   "note": "violated: any lease set under the destination's key, whatever is in it, stops the publisher during a verification"
  },
  {
   "property": "C160",
   "status": "proved",
   "theorems": [
    "Emissary.Publish.C160_poll_ends",
    "Emissary.Publish.C160_waits",
    "Emissary.Publish.C160_soon",
    "Emissary.Publish.C160_again"
   ],
   "note": "the 15 seconds are counted while there are a tunnel, a floodfill and room in the tunnel pool"
  },
  {
   "property": "C161",
   "status": "partial",
   "theorems": [
    "Emissary.Publish.C161_ends_violated",
    "Emissary.Publish.C161_only_partial"
   ],
   "note": "violated: a dropped request ends the publisher; C161_only_partial: nothing else does"
  },
  {
   "property": "C162",
   "status": "partial",
   "theorems": [
    "Emissary.Publish.C162_steered_violated",
    "Emissary.Publish.C162_other_partial"
   ],
   "note": "violated: one unauthenticated search reply chooses the next router; replies for other keys change nothing"
  },
  {
   "property": "C163",
   "status": "proved",
   "theorems": [
    "Emissary.SamSocket.C163_order",
    "Emissary.SamSocket.C163_kept",
    "Emissary.SamSocket.C163_flushed"
   ],
   "note": ""
  },
  {
   "property": "C164",
   "status": "partial",
   "theorems": [
    "Emissary.SamSocket.C164_lines_partial",
    "Emissary.SamSocket.C164_first_partial",
    "Emissary.SamSocket.C164_together_violated",
    "Emissary.SamSocket.C164_stale_violated",
    "Emissary.SamSocket.C164_long_violated"
   ],
   "note": "holds for the first line and for lines that arrive one by one; violated for lines that arrive together, for lines that arrive in parts after a longer one, and for long lines"
  },
  {
   "property": "C165",
   "status": "partial",
   "theorems": [
    "Emissary.SamParser.C165_forward",
    "Emissary.SamParser.C165_hyphen_violated",
    "Emissary.SamParser.C165_escaped_violated",
    "Emissary.SamParser.C165_empty_violated",
    "Emissary.SamParser.C165_value_ends",
    "Emissary.SamParser.C165_hello",
    "Emissary.SamParser.C165_versions",
    "Emissary.SamParser.C165_create_partial",
    "Emissary.SamParser.C165_keys_partial",
    "Emissary.SamParser.C165_short_keys",
    "Emissary.SamParser.C165_refused",
    "Emissary.SamParser.C165_accept",
    "Emissary.SamParser.C165_connect",
    "Emissary.SamParser.C165_lookup",
    "Emissary.SamParser.C165_generate"
   ],
   "note": "holds for keys and values of the usual form; violated: an option with a hyphen hides all options after it, escapes are not undone, empty quoted values"
  },
  {
   "property": "C166",
   "status": "partial",
   "theorems": [
    "Emissary.SamParser.C166_b32",
    "Emissary.SamParser.C166_ending_violated",
    "Emissary.SamParser.C166_length_violated",
    "Emissary.SamParser.C166_name",
    "Emissary.SamParser.C166_dest",
    "Emissary.SamParser.C166_no_panic"
   ],
   "note": "no command panics and the three forms are understood; violated: text after .b32.i2p is ignored and ids of any length are accepted"
  },
  {
   "property": "C167",
   "status": "partial",
   "theorems": [
    "Emissary.SamParser.C167_read_partial",
    "Emissary.SamParser.C167_panic_violated"
   ],
   "note": "well-formed datagrams are understood; violated: a datagram of fewer than four bytes stops the router"
  },
  {
   "property": "C168",
   "status": "proved",
   "theorems": [
    "Emissary.SamServer.C168_distinct",
    "Emissary.SamServer.C168_name",
    "Emissary.SamServer.C168_destination"
   ],
   "note": ""
  },
  {
   "property": "C169",
   "status": "partial",
   "theorems": [
    "Emissary.SamServer.C169_ended_partial",
    "Emissary.SamServer.C169_new",
    "Emissary.SamServer.C169_failed_violated"
   ],
   "note": "violated: a session that fails while it waits for tunnels blocks its name and destination for ever; proved for sessions that were in use and for new names"
  },
  {
   "property": "C170",
   "status": "partial",
   "theorems": [
    "Emissary.SamServer.C170_passed_partial",
    "Emissary.SamServer.C170_unanswered_violated",
    "Emissary.SamServer.C170_datagrams",
    "Emissary.SamServer.C170_names",
    "Emissary.SamServer.C170_bookless_violated",
    "Emissary.SamServer.C170_unterminated_violated",
    "Emissary.SamServer.C170_refused_violated"
   ],
   "note": "violated: commands for missing, waiting or busy sessions, host names without an address book and refused tunnel pools get no answer, and answers about duplicates lack the line feed; proved otherwise"
  },
  {
   "property": "C171",
   "status": "partial",
   "theorems": [
    "Emissary.SamServer.C171_short_violated",
    "Emissary.SamServer.C171_crash_violated",
    "Emissary.SamServer.C171_running_partial"
   ],
   "note": "violated: a datagram of fewer than four bytes or a panic in one task ends the server; proved that nothing else does"
  },
  {
   "property": "C172",
   "status": "proved",
   "theorems": [
    "Emissary.SamServer.C172_ready",
    "Emissary.SamServer.C172_soon",
    "Emissary.SamServer.C172_fails"
   ],
   "note": ""
  },
  {
   "property": "C173",
   "status": "partial",
   "theorems": [
    "Emissary.SamServer.C173_order",
    "Emissary.SamServer.C173_lost_violated"
   ],
   "note": "violated: a datagram whose write fails is lost; proved otherwise"
  },
  {
   "property": "C174",
   "status": "partial",
   "theorems": [
    "Emissary.SamSession.C174_once",
    "Emissary.SamSession.C174_texts",
    "Emissary.SamSession.C174_now",
    "Emissary.SamSession.C174_answered_partial",
    "Emissary.SamSession.C174_book",
    "Emissary.SamSession.C174_twice_violated"
   ],
   "note": "violated: a second lookup that needs the same lease set replaces the first, which is never answered"
  },
  {
   "property": "C175",
   "status": "proved",
   "theorems": [
    "Emissary.SamSession.C175_order",
    "Emissary.SamSession.C175_sent",
    "Emissary.SamSession.C175_kinds"
   ],
   "note": "datagrams whose lease set is not found are discarded, see the hypothesis of C175_order"
  },
  {
   "property": "C176",
   "status": "partial",
   "theorems": [
    "Emissary.SamSession.C176_once",
    "Emissary.SamSession.C176_opened_partial",
    "Emissary.SamSession.C176_unterminated_violated",
    "Emissary.SamSession.C176_dropped_violated",
    "Emissary.SamSession.C176_kind_violated",
    "Emissary.SamSession.C176_kept_partial",
    "Emissary.SamSession.C176_self"
   ],
   "note": "violated: sockets waiting for a lease set are dropped when another stream to the destination is opened or rejected; answers after a failed query lack the line feed; datagram sessions drop sockets"
  },
  {
   "property": "C177",
   "status": "partial",
   "theorems": [
    "Emissary.Datagram.C177_delivered_partial",
    "Emissary.Datagram.C177_exact",
    "Emissary.Datagram.C177_forged_violated",
    "Emissary.Datagram.C177_ports_violated",
    "Emissary.Datagram.C177_port_violated",
    "Emissary.Datagram.C177_lost_violated",
    "Emissary.Datagram.C177_dsa_violated"
   ],
   "note": "violated: signatures are not checked, ports are swapped, a port that is not a number stops the session, DSA signatures are cut wrongly, a full channel loses datagrams"
  },
  {
   "property": "C178",
   "status": "proved",
   "theorems": [
    "Emissary.Datagram.C178_roundtrip",
    "Emissary.Datagram.C178_built",
    "Emissary.Datagram.C178_refused"
   ],
   "note": "gzip is a parameter with the assumption Gzip.Ok"
  },
  {
   "property": "C179",
   "status": "partial",
   "theorems": [
    "Emissary.I2cpSocket.C179_order",
    "Emissary.I2cpSocket.C179_all_partial",
    "Emissary.I2cpSocket.C179_progress",
    "Emissary.I2cpSocket.C179_open_partial",
    "Emissary.I2cpSocket.C179_seen_partial",
    "Emissary.I2cpSocket.C179_size_violated"
   ],
   "note": "Proved for any segmentation and interleaving: messages of complete frames are seen once and in order, and all of them once polled often enough, for frames of at most 65535 bytes that do not hit a debug assertion. Violated: the header of a frame of more than 65535 bytes makes the task panic."
  },
  {
   "property": "C180",
   "status": "proved",
   "theorems": [
    "Emissary.I2cpSocket.C180_order",
    "Emissary.I2cpSocket.C180_kept",
    "Emissary.I2cpSocket.C180_flushed"
   ],
   "note": "Any interleaving and any behaviour of the stream."
  },
  {
   "property": "C181",
   "status": "partial",
   "theorems": [
    "Emissary.I2cpMessage.C181_set_date",
    "Emissary.I2cpMessage.C181_bandwidth",
    "Emissary.I2cpMessage.C181_payload",
    "Emissary.I2cpMessage.C181_status",
    "Emissary.I2cpMessage.C181_all_partial",
    "Emissary.I2cpMessage.C181_host_reply_violated",
    "Emissary.I2cpMessage.C181_deaf_violated",
    "Emissary.I2cpMessage.C181_lease_request_violated",
    "Emissary.I2cpMessage.C181_no_lease_violated"
   ],
   "note": "Proved for SetDate, BandwidthLimits, MessagePayload and SessionStatus. Violated: HostReply announces one byte less than it has and RequestVariableLeaseSet two, so the client loses the framing; after a failed lookup it waits for more than 16 MB; a request without leases panics."
  },
  {
   "property": "C182",
   "status": "partial",
   "theorems": [
    "Emissary.I2cpMessage.C182_get_date",
    "Emissary.I2cpMessage.C182_set_date",
    "Emissary.I2cpMessage.C182_lookup_hash",
    "Emissary.I2cpMessage.C182_lookup_name",
    "Emissary.I2cpMessage.C182_message",
    "Emissary.I2cpMessage.C182_signed",
    "Emissary.I2cpMessage.C182_lease_set",
    "Emissary.I2cpMessage.C182_lease_set_signed",
    "Emissary.I2cpMessage.C182_keys_violated",
    "Emissary.I2cpMessage.C182_trailing_violated",
    "Emissary.I2cpMessage.C182_total_partial"
   ],
   "note": "Field values proved for HostLookup, SendMessageExpires, CreateLeaseSet2; signatures proved for CreateSession and CreateLeaseSet2. Violated: private keys of a lease set are not compared with it and may be missing; trailing bytes hit a debug assertion. The date of CreateSession is not checked (no clock in the parser)."
  },
  {
   "property": "C183",
   "status": "partial",
   "theorems": [
    "Emissary.I2cpSession.C183_order",
    "Emissary.I2cpSession.C183_now",
    "Emissary.I2cpSession.C183_later_partial",
    "Emissary.I2cpSession.C183_lost_violated",
    "Emissary.I2cpSession.C183_lookup_violated",
    "Emissary.I2cpSession.C183_silent_violated"
   ],
   "note": "violated: a message for a destination that is being looked up for another reason is lost, and messages are dropped without notice if the lease set is not found"
  },
  {
   "property": "C184",
   "status": "partial",
   "theorems": [
    "Emissary.I2cpSession.C184_once",
    "Emissary.I2cpSession.C184_now",
    "Emissary.I2cpSession.C184_later_partial",
    "Emissary.I2cpSession.C184_book",
    "Emissary.I2cpSession.C184_forgotten_violated",
    "Emissary.I2cpSession.C184_no_book_violated"
   ],
   "note": "violated: a lookup of a hash that is already being looked for is never answered; without an address book lookups of hashes fail"
  },
  {
   "property": "C185",
   "status": "proved",
   "theorems": [
    "Emissary.I2cpSession.C185_delivered"
   ],
   "note": ""
  },
  {
   "property": "C186",
   "status": "partial",
   "theorems": [
    "Emissary.I2cpSession.C186_answers",
    "Emissary.I2cpSession.C186_published",
    "Emissary.I2cpSession.C186_key_violated",
    "Emissary.I2cpSession.C186_destroy_violated",
    "Emissary.I2cpSession.C186_closed",
    "Emissary.I2cpSession.C186_default_violated",
    "Emissary.I2cpSession.C186_no_key_violated"
   ],
   "note": "violated: DestroySession does not end the session, keys of later lease sets are ignored, lease sets are unpublished by default"
  },
  {
   "property": "C187",
   "status": "partial",
   "theorems": [
    "Emissary.I2cpServer.C187_request",
    "Emissary.I2cpServer.C187_once",
    "Emissary.I2cpServer.C187_started",
    "Emissary.I2cpServer.C187_soon_partial",
    "Emissary.I2cpServer.C187_more_violated",
    "Emissary.I2cpServer.C187_none_violated",
    "Emissary.I2cpServer.C187_lookup_violated",
    "Emissary.I2cpServer.C187_destroy_violated",
    "Emissary.I2cpServer.C187_other_violated"
   ],
   "note": "violated: more tunnels than wanted, no inbound tunnels, lookups, DestroySession and foreign lease sets"
  },
  {
   "property": "C188",
   "status": "partial",
   "theorems": [
    "Emissary.I2cpServer.C188_ids_partial",
    "Emissary.I2cpServer.C188_repeat_violated",
    "Emissary.I2cpServer.C188_none_violated",
    "Emissary.I2cpServer.C188_isolated_partial",
    "Emissary.I2cpServer.C188_active",
    "Emissary.I2cpServer.C188_early_violated",
    "Emissary.I2cpServer.C188_keys_violated",
    "Emissary.I2cpServer.C188_dead_violated",
    "Emissary.I2cpServer.C188_running_partial"
   ],
   "note": "violated: ids repeat and a client can end the server"
  },
  {
   "property": "C189",
   "status": "proved",
   "theorems": [
    "Emissary.Util.C189_rearranged",
    "Emissary.Util.C189_every"
   ],
   "note": ""
  },
  {
   "property": "C190",
   "status": "partial",
   "theorems": [
    "Emissary.Util.C190_blocks",
    "Emissary.Util.C190_multicast_violated",
    "Emissary.Util.C190_this_network_violated"
   ],
   "note": "violated: multicast addresses and nearly all of 0.0.0.0/8 count as public; the blocks the code knows are proved"
  },
  {
   "property": "C191",
   "status": "partial",
   "theorems": [
    "Emissary.Util.C191_read",
    "Emissary.Util.C191_given_up_violated",
    "Emissary.Util.C191_timeout",
    "Emissary.Util.C191_write",
    "Emissary.Util.C191_write_done",
    "Emissary.Util.C191_read_done"
   ],
   "note": "violated: bytes already read are lost with a read that is given up; the rest is proved"
  },
  {
   "property": "C192",
   "status": "partial",
   "theorems": [
    "Emissary.Bloom.C192_repeat",
    "Emissary.Bloom.C192_forgets",
    "Emissary.Bloom.C192_capacity_violated",
    "Emissary.Bloom.C192_new_partial"
   ],
   "note": "violated: between two agings at most 2048 new messages are let through; repeats and forgetting are proved"
  },
  {
   "property": "C193",
   "status": "partial",
   "theorems": [
    "Emissary.Shutdown.C193_ready",
    "Emissary.Shutdown.C193_notice",
    "Emissary.Shutdown.C193_early_violated",
    "Emissary.Shutdown.C193_late_violated",
    "Emissary.Shutdown.C193_again"
   ],
   "note": "violated: an answer before the notice was seen is not heard, and a handle given out after the request is not told; the rest is proved"
  },
  {
   "property": "C194",
   "status": "proved",
   "theorems": [
    "Emissary.Events.C194_numbers",
    "Emissary.Events.C194_each",
    "Emissary.Events.C194_now"
   ],
   "note": ""
  },
  {
   "property": "C195",
   "status": "partial",
   "theorems": [
    "Emissary.Events.C195_once",
    "Emissary.Events.C195_all_partial",
    "Emissary.Events.C195_unread_violated",
    "Emissary.Events.C195_burst_violated"
   ],
   "note": "violated: reports are lost when the reader is 64 events behind or 64 destinations start at once; proved otherwise"
  },
  {
   "property": "C196",
   "status": "partial",
   "theorems": [
    "Emissary.Events.C196_at_most_once",
    "Emissary.Router.C196_end",
    "Emissary.Router.C196_polled",
    "Emissary.Router.C196_shutting_down",
    "Emissary.Router.C196_shut_down_violated"
   ],
   "note": "violated: the event that the router has shut down is never sent; when it ends is proved"
  },
  {
   "property": "C197",
   "status": "proved",
   "theorems": [
    "Emissary.TBuild.C197_done_iff",
    "Emissary.TBuild.C197_until_then"
   ],
   "note": ""
  },
  {
   "property": "C198",
   "status": "proved",
   "theorems": [
    "Emissary.AddressBook.C198_lookup",
    "Emissary.AddressBook.C198_line"
   ],
   "note": "text as characters; downloads given"
  },
  {
   "property": "C199",
   "status": "partial",
   "theorems": [
    "Emissary.AddressBook.C199_forgotten_violated",
    "Emissary.AddressBook.C199_crash_violated",
    "Emissary.AddressBook.C199_torn_violated",
    "Emissary.AddressBook.C199_kept_partial"
   ],
   "note": "violated three ways: restart forgets, crash empties, crash truncates an address; _partial: an intact file keeps its names over a start"
  },
  {
   "property": "C200",
   "status": "proved",
   "theorems": [
    "Emissary.HttpProxy.C200_sent"
   ],
   "note": "the output of the httparse and url crates is given"
  },
  {
   "property": "C201",
   "status": "partial",
   "theorems": [
    "Emissary.HttpProxy.C201_same_partial",
    "Emissary.HttpProxy.C201_other_violated",
    "Emissary.HttpProxy.C201_referer_violated",
    "Emissary.HttpProxy.C201_agent_violated"
   ],
   "note": "noninterference for the headers the proxy knows; violated for unknown headers, foreign Referer, absent User-Agent"
  },
  {
   "property": "C202",
   "status": "partial",
   "theorems": [
    "Emissary.HttpProxy.C202_served",
    "Emissary.HttpProxy.C202_port_violated"
   ],
   "note": "exact characterisation proved; the wish that every .i2p host is served is violated for hosts with a port"
  },
  {
   "property": "C203",
   "status": "partial",
   "theorems": [
    "Emissary.HttpProxy.C203_beginning_partial",
    "Emissary.HttpProxy.C203_whole_partial",
    "Emissary.HttpProxy.C203_long_violated",
    "Emissary.HttpProxy.C203_lost_violated",
    "Emissary.HttpProxy.C203_head_violated"
   ],
   "note": "only a beginning of the body is sent; three violations"
  },
  {
   "property": "C204",
   "status": "proved",
   "theorems": [
    "Emissary.Su3.C204_read",
    "Emissary.Su3.C204_only"
   ],
   "note": "both directions"
  },
  {
   "property": "C205",
   "status": "partial",
   "theorems": [
    "Emissary.Su3.C205_unsigned_violated",
    "Emissary.Su3.C205_genuine_violated",
    "Emissary.Su3.C205_kind_partial",
    "Emissary.Su3.C205_files_partial"
   ],
   "note": "violated twice: signature never decides; genuine signatures fail the check; only the kind is enforced"
  },
  {
   "property": "C206",
   "status": "partial",
   "theorems": [
    "Emissary.Su3.C206_entry_violated",
    "Emissary.Su3.C206_version_violated",
    "Emissary.Su3.C206_safe_partial"
   ],
   "note": "violated by unreadable archive entries and, with debug assertions, short versions; safe otherwise"
  },
  {
   "property": "C207",
   "status": "partial",
   "theorems": [
    "Emissary.Su3.C207_asked_partial",
    "Emissary.Su3.C207_stuck_violated",
    "Emissary.Su3.C207_empty_violated",
    "Emissary.Su3.C207_ends_partial"
   ],
   "note": "distinct, at most five, first usable; violated: fewer than five servers never end, none panics"
  },
  {
   "property": "C208",
   "status": "proved",
   "theorems": [
    "Emissary.Boot.C208_identity"
   ],
   "note": "Model Boot: data directory as files and directories, changed one system call or byte at a time; a start is a list of changes and may be stopped after any number. Contents of the configuration are a parameter."
  },
  {
   "property": "C209",
   "status": "partial",
   "theorems": [
    "Emissary.Boot.C209_short_violated",
    "Emissary.Boot.C209_kept_partial"
   ],
   "note": "Violated by a short file (C209_short_violated); C209_kept_partial."
  },
  {
   "property": "C210",
   "status": "partial",
   "theorems": [
    "Emissary.Boot.C210_stopped_violated",
    "Emissary.Boot.C210_made_partial",
    "Emissary.Boot.C210_profiles_partial",
    "Emissary.Boot.C210_alphabet_partial"
   ],
   "note": "Violated (C210_stopped_violated); C210_made_partial, C210_profiles_partial: a start that is not stopped makes all of them."
  },
  {
   "property": "C211",
   "status": "partial",
   "theorems": [
    "Emissary.Boot.C211_kept_partial",
    "Emissary.Boot.C211_unreadable_violated"
   ],
   "note": "Violated by text that is not UTF-8 (C211_unreadable_violated); C211_kept_partial."
  },
  {
   "property": "C212",
   "status": "partial",
   "theorems": [
    "Emissary.Boot.C212_torn_violated",
    "Emissary.Boot.C212_before_partial"
   ],
   "note": "Violated (C212_torn_violated); C212_before_partial."
  },
  {
   "property": "C213",
   "status": "partial",
   "theorems": [
    "Emissary.Boot.C213_first_violated",
    "Emissary.Boot.C213_later_partial"
   ],
   "note": "Violated on the first start (C213_first_violated); C213_later_partial."
  },
  {
   "property": "C214",
   "status": "partial",
   "theorems": [
    "Emissary.Config.C214_asked_partial",
    "Emissary.Config.C214_http_violated",
    "Emissary.Config.C214_kept"
   ],
   "note": "C214_asked_partial, C214_kept; violated for the HTTP proxy (C214_http_violated)."
  },
  {
   "property": "C215",
   "status": "proved",
   "theorems": [
    "Emissary.Config.C215_distinct"
   ],
   "note": "Hash sets as duplicate-free lists."
  },
  {
   "property": "C216",
   "status": "proved",
   "theorems": [
    "Emissary.Config.C216_reseed"
   ],
   "note": "Model Config: merge and the decision in setup_router."
  },
  {
   "property": "C217",
   "status": "partial",
   "theorems": [
    "Emissary.Storage.C217_name_partial",
    "Emissary.Storage.C217_panic_violated",
    "Emissary.Storage.C217_other_violated"
   ],
   "note": "Violated for some data directories (C217_panic_violated, C217_other_violated); C217_name_partial."
  },
  {
   "property": "C218",
   "status": "proved",
   "theorems": [
    "Emissary.Storage.C218_loaded",
    "Emissary.Storage.C218_paths"
   ],
   "note": "Model Storage: files grow one byte at a time; text form of profiles and decompression are parameters; paths of the data directory as in C217_name_partial."
  },
  {
   "property": "C219",
   "status": "partial",
   "theorems": [
    "Emissary.Storage.C219_info_violated",
    "Emissary.Storage.C219_profile_violated",
    "Emissary.Storage.C219_torn_partial"
   ],
   "note": "Violated (C219_info_violated, C219_profile_violated); C219_torn_partial."
  },
  {
   "property": "C220",
   "status": "partial",
   "theorems": [
    "Emissary.PortMapper.C220_udp_violated",
    "Emissary.PortMapper.C220_upnp_partial",
    "Emissary.PortMapper.C220_removed_partial"
   ],
   "note": "Violated by NAT-PMP (C220_udp_violated); C220_upnp_partial, C220_removed_partial."
  },
  {
   "property": "C221",
   "status": "partial",
   "theorems": [
    "Emissary.PortMapper.C221_gateway_violated",
    "Emissary.PortMapper.C221_mapping_violated",
    "Emissary.PortMapper.C221_timeout_partial"
   ],
   "note": "Violated (C221_gateway_violated, C221_mapping_violated); C221_timeout_partial."
  },
  {
   "property": "C222",
   "status": "partial",
   "theorems": [
    "Emissary.Cli.C222_told_partial",
    "Emissary.PortMapper.C222_natpmp_partial",
    "Emissary.PortMapper.C222_upnp_partial",
    "Emissary.PortMapper.C222_error_violated"
   ],
   "note": "C222_natpmp_partial, C222_upnp_partial without early errors; C222_error_violated."
  },
  {
   "property": "C223",
   "status": "partial",
   "theorems": [
    "Emissary.PortMapper.C223_natpmp_partial",
    "Emissary.PortMapper.C223_upnp_violated"
   ],
   "note": "Violated by UPnP (C223_upnp_violated), assuming that a tokio timer that has fired stays ready; C223_natpmp_partial."
  },
  {
   "property": "C224",
   "status": "partial",
   "theorems": [
    "Emissary.Tunnels.C224_same_partial",
    "Emissary.Tunnels.C224_torn_violated",
    "Emissary.Tunnels.C224_unwritable_violated"
   ],
   "note": "violated by a kill while the key is stored, and if it cannot be stored; proved for a key that was stored"
  },
  {
   "property": "C225",
   "status": "partial",
   "theorems": [
    "Emissary.Tunnels.C225_joined_partial",
    "Emissary.Tunnels.C225_second_violated",
    "Emissary.Tunnels.C225_waits_partial"
   ],
   "note": "violated for connections made while another is served; proved that connections get their own tunnel's destination"
  },
  {
   "property": "C226",
   "status": "partial",
   "theorems": [
    "Emissary.SamHello.C226_version_partial",
    "Emissary.SamHello.C226_minimum_violated"
   ],
   "note": "violated: the minimum version of the client is ignored; proved that the version is told and at most the maximum"
  },
  {
   "property": "C227",
   "status": "partial",
   "theorems": [
    "Emissary.SamHello.C227_kept_partial",
    "Emissary.SamHello.C227_new_partial",
    "Emissary.SamHello.C227_greeted_partial",
    "Emissary.SamHello.C227_busy_violated"
   ],
   "note": "violated for clients that go on asking; proved that there are ten seconds"
  },
  {
   "property": "C228",
   "status": "proved",
   "theorems": [
    "Emissary.SamHello.C228_usable"
   ],
   "note": ""
  },
  {
   "property": "C229",
   "status": "partial",
   "theorems": [
    "Emissary.Net.C229_address_partial",
    "Emissary.Net.C229_dialled_partial",
    "Emissary.Net.C229_ssu2_violated",
    "Emissary.Net.C229_crash_violated",
    "Emissary.Net.C229_safe_partial"
   ],
   "note": "violated: only the first transport is used; SSU2 dial panics without an SSU2 address; otherwise proved"
  },
  {
   "property": "C230",
   "status": "partial",
   "theorems": [
    "Emissary.Net.C230_dial_partial",
    "Emissary.Net.C230_accept_partial",
    "Emissary.Net.C230_ssu2_violated",
    "Emissary.Net.C230_ipv6_violated"
   ],
   "note": "violated for SSU2 dials and for IPv6; proved for NTCP2 over IPv4"
  },
  {
   "property": "C231",
   "status": "partial",
   "theorems": [
    "Emissary.Net.C231_published_partial",
    "Emissary.Net.C231_cost",
    "Emissary.Net.C231_hidden",
    "Emissary.Net.C231_port_violated"
   ],
   "note": "violated for ports chosen by the operating system; proved for configured ports and for unpublished transports"
  },
  {
   "property": "C232",
   "status": "partial",
   "theorems": [
    "Emissary.Net.C232_accept_violated",
    "Emissary.Net.C232_send_violated",
    "Emissary.Net.C232_sent_partial",
    "Emissary.Net.C232_keeps_partial"
   ],
   "note": "violated by the first accept or send error; proved that nothing else ends the transport"
  },
  {
   "property": "C233",
   "status": "proved",
   "theorems": [
    "Emissary.Net.C233_once",
    "Emissary.Net.C233_all"
   ],
   "note": "model of the NTCP2 transport; the handshakes' own behaviour is in C85-C89 and not composed here"
  },
  {
   "property": "C234",
   "status": "partial",
   "theorems": [
    "Emissary.Net.C234_second_violated",
    "Emissary.Net.C234_refused_violated",
    "Emissary.Net.C234_rest_partial"
   ],
   "note": "two lost wake-ups proved; all other cases hold"
  },
  {
   "property": "C235",
   "status": "partial",
   "theorems": [
    "Emissary.Hop.C235_delivered_partial"
   ],
   "note": "messages of up to 64 pieces (C12 shows that longer ones are never delivered); any build; crypto is lawful AES and SHA-256 with 32 bytes"
  },
  {
   "property": "C236",
   "status": "partial",
   "theorems": [
    "Emissary.Hop.C236_inbound_partial",
    "Emissary.Hop.C236_gateway_partial"
   ],
   "note": "messages of up to 64 pieces"
  },
  {
   "property": "C237",
   "status": "partial",
   "theorems": [
    "Emissary.Hop.C237_goes_on_partial",
    "Emissary.Hop.C237_readable_partial",
    "Emissary.Hop.C237_debug_violated"
   ],
   "note": "violated in debug builds"
  },
  {
   "property": "C238",
   "status": "proved",
   "theorems": [
    "Emissary.Hop.C238_participant",
    "Emissary.Hop.C238_gateway",
    "Emissary.Hop.C238_endpoint"
   ],
   "note": ""
  },
  {
   "property": "C239",
   "status": "partial",
   "theorems": [
    "Emissary.Hop.C239_accounted_partial",
    "Emissary.Hop.C239_lost_violated"
   ],
   "note": "violated at the end of a tunnel"
  },
  {
   "property": "C240",
   "status": "partial",
   "theorems": [
    "Emissary.Hop.C240_first_partial",
    "Emissary.Hop.C240_once_partial",
    "Emissary.Hop.C240_junk_violated"
   ],
   "note": "violated: the first message uses the tunnel up, whatever it is"
  },
  {
   "property": "C241",
   "status": "proved",
   "theorems": [
    "Emissary.Dsa.C241_dsa",
    "Emissary.Dsa.C241_range"
   ],
   "note": "SHA-1 is a parameter; the group order is proved prime by a Pratt certificate; that the modulus is prime is not needed"
  },
  {
   "property": "C242",
   "status": "partial",
   "theorems": [
    "Emissary.Dsa.C242_key_bytes",
    "Emissary.Dsa.C242_length_partial",
    "Emissary.Dsa.C242_extra_violated"
   ],
   "note": "violated for DSA: bytes after the signature are ignored"
  },
  {
   "property": "C243",
   "status": "proved",
   "theorems": [
    "Emissary.Dsa.C243_nonces",
    "Emissary.Dsa.C243_damaged",
    "Emissary.Dsa.C243_in_order"
   ],
   "note": "the AEAD is a parameter; the nonce is per cipher object"
  },
  {
   "property": "C244",
   "status": "proved",
   "theorems": [
    "Emissary.Stream.C244_everything_arrives",
    "Emissary.Stream.C244_done"
   ],
   "note": "timers, the channel and the network are the schedule; fairness is the structure Fair; until the close of the stream (C07)"
  },
  {
   "property": "C245",
   "status": "partial",
   "theorems": [
    "Emissary.HttpProxy.C245_answered_partial",
    "Emissary.HttpProxy.C245_silent_violated",
    "Emissary.HttpProxy.C245_broken_violated"
   ],
   "note": "a request that takes over ten seconds, a head that does not fit 8192 bytes and a connection that breaks before the request is written are not answered (C245_silent_violated, C245_broken_violated)"
  },
  {
   "property": "C246",
   "status": "partial",
   "theorems": [
    "Emissary.HttpProxy.C246_text_partial",
    "Emissary.HttpProxy.C246_markup_violated"
   ],
   "note": "the host is put into the page as it is: markup in it becomes markup of the page (C246_markup_violated); proved for hosts without <"
  },
  {
   "property": "C247",
   "status": "partial",
   "theorems": [
    "Emissary.Runtime.C247_peer_partial",
    "Emissary.Runtime.C247_listener_partial",
    "Emissary.Runtime.C247_async_violated",
    "Emissary.Runtime.C247_refused_violated",
    "Emissary.Runtime.C247_private_violated"
   ],
   "note": "proved for tokio; async-std reports the local address (C247_async_violated), so a router behind a private address takes no connection (C247_refused_violated) and one with a public address takes private peers (C247_private_violated)"
  },
  {
   "property": "C248",
   "status": "partial",
   "theorems": [
    "Emissary.Runtime.C248_tokio_partial",
    "Emissary.Runtime.C248_order_partial",
    "Emissary.Runtime.C248_room_partial",
    "Emissary.Runtime.C248_full_violated",
    "Emissary.Runtime.C248_dead_violated",
    "Emissary.Runtime.C248_long_violated"
   ],
   "note": "proved for tokio; async-std reports datagrams that it drops when the channel is full (C248_full_violated), ends at the first error (C248_dead_violated), and panics on long datagrams with debug assertions (C248_long_violated)"
  },
  {
   "property": "C249",
   "status": "partial",
   "theorems": [
    "Emissary.Runtime.C249_results_partial",
    "Emissary.Runtime.C249_open_partial",
    "Emissary.Runtime.C249_woken_partial",
    "Emissary.Runtime.C249_ended_violated"
   ],
   "note": "a task that panicked makes the tokio set say that it ended (C249_ended_violated); the rest is proved"
  },
  {
   "property": "C250",
   "status": "partial",
   "theorems": [
    "Emissary.Journey.C250_crosses_partial"
   ],
   "note": "Proved for messages of up to 64 pieces (C12 shows what happens beyond) that are parsed whole and whose expiry fits the headers. The tunnels may have any number of hops; participants are on the way of each piece as in C235 and C236."
  },
  {
   "property": "C251",
   "status": "partial",
   "theorems": [
    "Emissary.Journey.C251_first_partial",
    "Emissary.Journey.C251_session_partial",
    "Emissary.Journey.C251_ratchets_partial"
   ],
   "note": "Proved under the conditions of C119 (first messages), C115 (sessions, until a ratchet is due, in any order) and C271 (conversations over any number of ratchets, in order) and for what fits into 64 pieces. The violations of C115 to C119 and C271 apply."
  },
  {
   "property": "C252",
   "status": "partial",
   "theorems": [
    "Emissary.Journey.C252_first_partial",
    "Emissary.Journey.C252_session_partial",
    "Emissary.Journey.C252_ratchets_partial"
   ],
   "note": "Proved under the conditions of C251 and C177 (ports 0, room in the channel to the client), for one datagram and for any number of datagrams over any number of ratchets. The violations of C177 apply."
  },
  {
   "property": "C253",
   "status": "partial",
   "theorems": [
    "Emissary.Ssu2.Socket.C253_in_order",
    "Emissary.Ssu2.Socket.C253_none_lost_partial",
    "Emissary.Ssu2.Socket.C253_delivered_partial",
    "Emissary.Ssu2.Socket.C253_full_violated"
   ],
   "note": "order proved for all histories; a full channel loses packets"
  },
  {
   "property": "C254",
   "status": "partial",
   "theorems": [
    "Emissary.Ssu2.Socket.C254_end_panics_violated",
    "Emissary.Ssu2.Socket.C254_peer_ends_router_violated",
    "Emissary.Ssu2.Socket.C254_manager_never_told_violated",
    "Emissary.Ssu2.Socket.C254_only_ends_panic_partial"
   ],
   "note": "violated: any peer can end the router with a termination packet; the manager is never told"
  },
  {
   "property": "C255",
   "status": "partial",
   "theorems": [
    "Emissary.Ssu2.Socket.C255_ids_kept_violated",
    "Emissary.Ssu2.Socket.C255_token_requests_violated",
    "Emissary.Ssu2.Socket.C255_id_dead_violated",
    "Emissary.Ssu2.Socket.C255_one_entry_each_partial"
   ],
   "note": "violated: entries are never removed"
  },
  {
   "property": "C256",
   "status": "proved",
   "theorems": [
    "Emissary.Ssu2.Socket.C256_manager",
    "Emissary.Ssu2.Socket.C256_told",
    "Emissary.Ssu2.Socket.C256_reported_down"
   ],
   "note": "Inbound and outbound sessions from the socket's first datagram on; a panicking task only in checked builds"
  },
  {
   "property": "C257",
   "status": "partial",
   "theorems": [
    "Emissary.Ssu2.Socket.C257_never_times_out_violated"
   ],
   "note": "violated: an active session has no timeout; the theorem is the refutation"
  },
  {
   "property": "C258",
   "status": "proved",
   "theorems": [
    "Emissary.Ntcp2.Link.C258_in_order"
   ],
   "note": "Messages that fit an NTCP2 frame; TCP loses nothing"
  },
  {
   "property": "C259",
   "status": "proved",
   "theorems": [
    "Emissary.Ntcp2.Link.C259_delivered"
   ],
   "note": "Fair schedules; messages that fit an NTCP2 frame; TCP loses nothing"
  },
  {
   "property": "C260",
   "status": "proved",
   "theorems": [
    "Emissary.Meet.C260_agree"
   ],
   "note": "Two routers, NTCP2"
  },
  {
   "property": "C261",
   "status": "partial",
   "theorems": [
    "Emissary.Meet.C261_one_asks_partial",
    "Emissary.Meet.C261_both_ask_violated"
   ],
   "note": "violated when both routers dial: each drops the other's connection, whatever the order"
  },
  {
   "property": "C262",
   "status": "partial",
   "theorems": [
    "Emissary.Ntcp2.Transport.C262_woken_partial",
    "Emissary.Ntcp2.Transport.C262_failed_handshake_violated",
    "Emissary.Ntcp2.Transport.C262_backlog_violated",
    "Emissary.Ntcp2.Transport.C262_backlog_partial"
   ],
   "note": "violated after a failed inbound handshake and after the first connection from the listener; the theorem covers the other polls"
  },
  {
   "property": "C263",
   "status": "proved",
   "theorems": [
    "Emissary.Ntcp2.Transport.C263_account"
   ],
   "note": "Task panics are excluded (C249)"
  },
  {
   "property": "C264",
   "status": "partial",
   "theorems": [
    "Emissary.NetdbRun.C264_table_partial",
    "Emissary.NetdbRun.C264_asked_partial",
    "Emissary.NetdbRun.C264_used_partial",
    "Emissary.NetdbRun.C264_named_violated"
   ],
   "note": "proved for requests of the user (lookups, searches for floodfills, publishing) and for the table; refuted for routers that are named in replies to a search, which are asked without being floodfills"
  },
  {
   "property": "C265",
   "status": "proved",
   "theorems": [
    "Emissary.Ecies.C265_watched"
   ],
   "note": "for runs in which no call aborted the program: a panic inside a session leaves the tag removed; a tag that two sessions generated is excluded"
  },
  {
   "property": "C266",
   "status": "partial",
   "theorems": [
    "Emissary.Cli.C266_unasked_partial",
    "Emissary.Cli.C266_twice_partial",
    "Emissary.Cli.C266_gateway_violated",
    "Emissary.Cli.C266_graceful_partial",
    "Emissary.Cli.C266_unasked_goes_on_partial",
    "Emissary.Cli.C266_buttons_partial"
   ],
   "note": "proved for fair schedules when the port mapper answers; violated: while it does not answer, the loop waits inside the branch that took the request, polls nothing and hears nothing"
  },
  {
   "property": "C267",
   "status": "partial",
   "theorems": [
    "Emissary.Cli.C267_true",
    "Emissary.Cli.C267_fresh",
    "Emissary.Cli.C267_all_partial",
    "Emissary.Cli.C267_status",
    "Emissary.Cli.C267_since",
    "Emissary.Cli.C267_countdown",
    "Emissary.Cli.C267_uptime",
    "Emissary.Cli.C267_unit",
    "Emissary.Cli.C267_rate_violated",
    "Emissary.Cli.C267_rate_ends_partial"
   ],
   "note": "proved but for a full channel, in which destinations are lost (C195); violated for the success rate: 29 of 100 is shown as 28 %"
  },
  {
   "property": "C268",
   "status": "partial",
   "theorems": [
    "Emissary.Start.C268_groups_partial",
    "Emissary.Start.C268_trailing_violated",
    "Emissary.Start.C268_unknown_violated",
    "Emissary.Start.C268_presets"
   ],
   "note": "proved for options made of groups; violated: targets after the last level are ignored, and an unknown level makes the program panic"
  },
  {
   "property": "C269",
   "status": "partial",
   "theorems": [
    "Emissary.Start.C269_routers",
    "Emissary.Start.C269_sam_partial",
    "Emissary.Start.C269_no_sam_violated",
    "Emissary.Start.C269_address_book_violated",
    "Emissary.Start.C269_alone_violated"
   ],
   "note": "proved for the routers, and for the services when the SAM server listens; violated: without it, or without the proxy for the address book, what is configured silently does not run"
  },
  {
   "property": "C270",
   "status": "partial",
   "theorems": [
    "Emissary.PoolSend.C270_first_hop",
    "Emissary.PoolSend.C270_order",
    "Emissary.PoolSend.C270_sent_partial",
    "Emissary.PoolSend.C270_delivered_partial",
    "Emissary.PoolSend.C270_no_tunnel_violated",
    "Emissary.PoolSend.C270_bound_violated",
    "Emissary.PoolSend.C270_expired_violated"
   ],
   "note": "delivery for messages of up to 64 pieces; violated: accepted messages are dropped without an outbound tunnel, bound ones when their tunnel is gone; with debug assertions an expired tunnel ends the pool"
  },
  {
   "property": "C271",
   "status": "partial",
   "theorems": [
    "Emissary.Ecies.C271_ratchets_partial",
    "Emissary.Ecies.C271_strangers_partial",
    "Emissary.Ecies.C271_unanswered_violated"
   ],
   "note": "Proved for messages that arrive in order, with no tag collision, up to 65535 tag sets each way, if nobody speaks more often in a row than tags are generated ahead; refuted without that bound; missing: losses and overtaking across a ratchet, and the passage of time (old tags expire after three minutes, C127)"
  },
  {
   "property": "C272",
   "status": "partial",
   "theorems": [
    "Emissary.Ntcp2.C272_accepts_partial",
    "Emissary.Ntcp2.C272_dials_partial",
    "Emissary.Ntcp2.C272_unpadded_request_violated",
    "Emissary.Ntcp2.C272_unpadded_answer_violated"
   ],
   "note": "proved for every conforming peer that pads its messages; violated for peers that send no padding, because the code mixes empty padding into the handshake hash"
  },
  {
   "property": "C273",
   "status": "proved",
   "theorems": [
    "Emissary.Kdf.C273_tag_sets",
    "Emissary.Kdf.C273_entries",
    "Emissary.Kdf.C273_new_session",
    "Emissary.Kdf.C273_reply",
    "Emissary.Kdf.C273_tunnels",
    "Emissary.Kdf.C273_ssu2",
    "Emissary.Kdf.C273_messages"
   ],
   "note": ""
  },
  {
   "property": "C274",
   "status": "partial",
   "theorems": [
    "Emissary.Wire.C274_i2np",
    "Emissary.Wire.C274_answers",
    "Emissary.Wire.C274_lookups_partial",
    "Emissary.Wire.C274_encrypted_lookups_violated",
    "Emissary.Wire.C274_stores_partial",
    "Emissary.Wire.C274_build_records",
    "Emissary.Wire.C274_fragments",
    "Emissary.Wire.C274_tunnel_messages",
    "Emissary.Wire.C274_garlic",
    "Emissary.Wire.C274_streaming",
    "Emissary.Wire.C274_payloads"
   ],
   "note": "violated for lookups that ask for an encrypted reply"
  },
  {
   "property": "C275",
   "status": "partial",
   "theorems": [
    "Emissary.Wire.C275_lease_set_made",
    "Emissary.Wire.C275_lease_set_read_partial",
    "Emissary.Wire.C275_router_info_read_partial",
    "Emissary.Wire.C275_router_info_made",
    "Emissary.Wire.C275_other_transports_violated",
    "Emissary.Wire.C275_other_keys_violated",
    "Emissary.Wire.C275_first_lease",
    "Emissary.Wire.C275_offline_read_partial",
    "Emissary.Wire.C275_offline_length_violated"
   ],
   "note": "violated for router infos with an address of another transport, for lease sets without an X25519 key and for lease sets with a transient key of a destination with a DSA key"
  },
  {
   "property": "C276",
   "status": "partial",
   "theorems": [
    "Emissary.Ssu2.C276_answer_blocks",
    "Emissary.Ssu2.C276_dialling",
    "Emissary.Ssu2.C276_being_dialled_partial",
    "Emissary.Ssu2.C276_unknown_blocks_violated",
    "Emissary.Ssu2.C276_compressed_info_violated"
   ],
   "note": "proved in full for the dialling side and for payloads of known blocks on the other; violated for blocks of unknown types and for compressed router infos; a SessionConfirmed in several packets is not modelled"
  },
  {
   "property": "C277",
   "status": "proved",
   "theorems": [
    "Emissary.TBuild.C277_creator",
    "Emissary.TBuild.C277_hop"
   ],
   "note": "short build messages; the routers' answers and the ways they come back are arbitrary"
  },
  {
   "property": "C278",
   "status": "partial",
   "theorems": [
    "Emissary.NetdbWire.C278_direct_lookup",
    "Emissary.NetdbWire.C278_published_partial",
    "Emissary.NetdbWire.C278_token_violated",
    "Emissary.NetdbWire.C278_lease_set_lookup",
    "Emissary.NetdbWire.C278_router_lookup",
    "Emissary.NetdbWire.C278_sent_partial",
    "Emissary.NetdbWire.C278_status"
   ],
   "note": "violated when the reply token drawn is zero"
  },
  {
   "property": "C279",
   "status": "partial",
   "theorems": [
    "Emissary.NetdbWire.C279_current",
    "Emissary.NetdbWire.C279_found_partial"
   ],
   "note": "proved until the first expiration in the lease set and while nobody stores another under the key (C141 shows both limits are real)"
  },
  {
   "property": "C280",
   "status": "partial",
   "theorems": [
    "Emissary.GarlicPeer.C280_remembered",
    "Emissary.GarlicPeer.C280_request_violated",
    "Emissary.GarlicPeer.C280_called_partial",
    "Emissary.GarlicPeer.C280_calls_partial"
   ],
   "note": "proved before the first ratchet, for the first messages that are watched for (4,096 as shipped) and payloads without acknowledgements; violated for requests without a database store"
  },
  {
   "property": "C281",
   "status": "proved",
   "theorems": [
    "Emissary.TunnelPeer.C281_outbound_owner",
    "Emissary.TunnelPeer.C281_inbound_owner",
    "Emissary.TunnelPeer.C281_endpoint",
    "Emissary.TunnelPeer.C281_gateway",
    "Emissary.TunnelPeer.C281_participant",
    "Emissary.TunnelPeer.C281_put_together"
   ],
   "note": "messages of at most 64 pieces (C12 says what happens beyond); block cipher and hash are parameters with their laws"
  },
  {
   "property": "C282",
   "status": "partial",
   "theorems": [
    "Emissary.StreamTask.C282_read",
    "Emissary.StreamTask.C282_kept_partial",
    "Emissary.StreamTask.C282_sent_again",
    "Emissary.StreamTask.C282_peer_closes_violated"
   ],
   "note": "violated when the peer closes: unacknowledged and unsent data of the client is thrown away; otherwise every packet is kept and sent again until it is acknowledged"
  },
  {
   "property": "C283",
   "status": "partial",
   "theorems": [
    "Emissary.StreamTask.C283_client_done_violated",
    "Emissary.StreamTask.C283_peer_done_violated",
    "Emissary.StreamTask.C283_delivered_partial",
    "Emissary.StreamTask.C283_acknowledges",
    "Emissary.StreamTask.C283_complete"
   ],
   "note": "violated: after either side has closed its direction the other direction is cut off as well; until then delivery is in order and without gaps"
  },
  {
   "property": "C284",
   "status": "partial",
   "theorems": [
    "Emissary.StreamTask.C284_vanished_violated",
    "Emissary.StreamTask.C284_ends_partial"
   ],
   "note": "violated: retransmission has no limit, nothing but an event from outside ends the task"
  },
  {
   "property": "C285",
   "status": "partial",
   "theorems": [
    "Emissary.StreamTask.C285_given_first",
    "Emissary.StreamTask.C285_told_apart_partial",
    "Emissary.StreamTask.C285_destination_connects",
    "Emissary.StreamTask.C285_hash_instead_violated"
   ],
   "note": "violated: the line carries the hash in place of the destination and cannot be used to connect; the order of line, early data and later data is proved"
  },
  {
   "property": "C286",
   "status": "partial",
   "theorems": [
    "Emissary.StreamPeer.C286_peer_opens_partial",
    "Emissary.StreamPeer.C286_peer_answers",
    "Emissary.StreamPeer.C286_own_packets",
    "Emissary.StreamPeer.C286_older_peers_violated"
   ],
   "note": "SYNs without the hash of the addressee (older peers) are ignored: C286_older_peers_violated; with it every peer is accepted, every answer is, and the own packets are those of the specification"
  },
  {
   "property": "C287",
   "status": "partial",
   "theorems": [
    "Emissary.StreamPeer.C287_reset_violated",
    "Emissary.StreamPeer.C287_close_violated",
    "Emissary.StreamPeer.C287_number_partial"
   ],
   "note": "unsigned RESET and CLOSE end a stream: C287_reset_violated, C287_close_violated; the number of the stream is the only protection: C287_number_partial"
  },
  {
   "property": "C288",
   "status": "partial",
   "theorems": [
    "Emissary.StreamPeer.C288_ignored_violated",
    "Emissary.StreamPeer.C288_too_large_violated",
    "Emissary.StreamPeer.C288_sizes_partial"
   ],
   "note": "the size and the delay the peer asks for are ignored: C288_ignored_violated, C288_too_large_violated; the bound 1812 and the same data under a number hold in every history"
  },
  {
   "property": "C289",
   "status": "partial",
   "theorems": [
    "Emissary.TunnelTest.C289_interval",
    "Emissary.TunnelTest.C289_content",
    "Emissary.TunnelTest.C289_succeeds_partial",
    "Emissary.TunnelTest.C289_forged_violated",
    "Emissary.TunnelTest.C289_still_used_violated"
   ],
   "note": "Working tunnels pass their test; but anyone who knows its number can end it well, and failing tunnels are used as before."
  },
  {
   "property": "C290",
   "status": "partial",
   "theorems": [
    "Emissary.Datagram.C290_received_partial",
    "Emissary.Datagram.C290_raw_received",
    "Emissary.Datagram.C290_types_violated",
    "Emissary.Datagram.C290_newer_violated",
    "Emissary.Datagram.C290_sent"
   ],
   "note": "Datagrams from destinations for DSA, P-384, P-521 or RedDSA and those of newer formats are dropped; the rest is read and written as specified."
  },
  {
   "property": "C291",
   "status": "partial",
   "theorems": [
    "Emissary.Journey.C291_ratchets_partial",
    "Emissary.Journey.C291_opens_partial",
    "Emissary.Journey.C291_packets_partial"
   ],
   "note": "C291_opens_partial, C291_packets_partial and C291_ratchets_partial: the opening of a stream and the packets after it, through any tunnels, also over ratchets; messages of up to 64 pieces (C12), no two session tags equal, the one that is called does not itself open a session at the same time (C119), nothing of the opening is lost (C67: a lost SYN-ACK is not repeated), over ratchets under the conditions of C271."
  },
  {
   "property": "C292",
   "status": "partial",
   "theorems": [
    "Emissary.StreamTask.C292_reads_partial",
    "Emissary.StreamTask.C292_close_violated"
   ],
   "note": "the beginning is proved for both directions; violated: a CLOSE has a number but no data, the receiver never counts it and so never acknowledges it; only the CLOSE that the peer itself sends ends the stream"
  },
  {
   "property": "C293",
   "status": "partial",
   "theorems": [
    "Emissary.SamPending.C293_ready",
    "Emissary.SamPending.C293_given_up",
    "Emissary.SamPending.C293_established",
    "Emissary.SamPending.C293_unanswered_violated",
    "Emissary.SamPending.C293_manager_ends_violated"
   ],
   "note": "Proved: when a session is established or given up, and that it is established if the rest of the router works. Violated: while the channel of the network database is closed or stays full the request is retried for ever and never answered; a tunnel manager that ends makes the task panic."
  },
  {
   "property": "C294",
   "status": "partial",
   "theorems": [
    "Emissary.StreamPorts.C294_outbound",
    "Emissary.StreamPorts.C294_inbound_partial",
    "Emissary.StreamPorts.C294_inbound_violated",
    "Emissary.StreamPorts.C294_waiting_violated",
    "Emissary.StreamPorts.C294_waiting_partial",
    "Emissary.StreamPorts.C294_written",
    "Emissary.StreamPorts.C294_not_a_number"
   ],
   "note": "Proved for streams that the client opens, for streams that a remote opens from port 0 to port 0, and for other ports as long as the stream waits for a listener. Violated for other ports after that: a stream that is accepted sends all its packets from and to port 0, and one that waited for a listener changes its ports."
  },
  {
   "property": "C295",
   "status": "partial",
   "theorems": [
    "Emissary.I2cpSession.C295_at_once_partial",
    "Emissary.I2cpSession.C295_expired_violated",
    "Emissary.I2cpSession.C295_waits_violated"
   ],
   "note": "violated: the expiration is never looked at, neither when the message comes nor when its lease set is found"
  },
  {
   "property": "C296",
   "status": "partial",
   "theorems": [
    "Emissary.PoolConfig.C296_asked",
    "Emissary.PoolConfig.C296_length",
    "Emissary.PoolConfig.C296_none_violated",
    "Emissary.PoolConfig.C296_sam_violated",
    "Emissary.PoolConfig.C296_sam_partial"
   ],
   "note": "violated: zero or more than 8 hops give no tunnel; options of SAM clients are ignored. That a pool keeps to the number of tunnels is C129"
  },
  {
   "property": "C297",
   "status": "partial",
   "theorems": [
    "Emissary.PoolWaits.C297_kept_partial",
    "Emissary.PoolWaits.C297_answered",
    "Emissary.PoolWaits.C297_tests_violated",
    "Emissary.PoolWaits.C297_dials_violated",
    "Emissary.PoolWaits.C297_inbound_partial",
    "Emissary.PoolWaits.C297_inbound_violated"
   ],
   "note": "Holds in all histories without failed dials and late tests (C297_kept_partial). C297_tests_violated and C297_dials_violated: any number of late tests, or of builds whose first router cannot be dialled, leaves as many listeners for which nobody waits. C297_answered: the converse holds always, the listener of a task that waits is there and its answer is passed to it. The same for inbound tunnels, whose listeners are in the routing table: C297_inbound_partial and C297_inbound_violated."
  },
  {
   "property": "C298",
   "status": "partial",
   "theorems": [
    "Emissary.SamHello.C298_answers",
    "Emissary.SamHello.C298_lookup_violated"
   ],
   "note": "C298_answers: one line per command, in order and as specified for unknown names, for all histories. C298_lookup_violated: names that a session finds at once are not found without a session."
  },
  {
   "property": "C299",
   "status": "partial",
   "theorems": [
    "Emissary.Ssu2.C299_sent",
    "Emissary.Ssu2.C299_received",
    "Emissary.Ssu2.C299_tunnels",
    "Emissary.Ssu2.C299_gateway",
    "Emissary.Ssu2.C299_size_violated",
    "Emissary.Ssu2.C299_cut_violated"
   ],
   "note": "C299_sent, C299_received, C299_tunnels, C299_gateway: sizes 1 to 65526 and all that is forwarded. C299_size_violated and C299_cut_violated: other sizes."
  },
  {
   "property": "C300",
   "status": "partial",
   "theorems": [
    "Emissary.StreamTask.C300_reason",
    "Emissary.StreamTask.C300_goes_on_partial",
    "Emissary.StreamTask.C300_syn_violated",
    "Emissary.StreamTask.C300_last_number_violated"
   ],
   "note": "C300_reason: every end has its reason in the history. C300_goes_on_partial: without one, a stream goes on. C300_syn_violated, C300_last_number_violated: the two panics."
  },
  {
   "property": "C301",
   "status": "partial",
   "theorems": [
    "Emissary.StreamTask.C301_alone_partial",
    "Emissary.StreamTask.C301_ends_partial",
    "Emissary.StreamTask.C301_why_partial",
    "Emissary.StreamTask.C301_panic_violated",
    "Emissary.StreamTask.C301_two_packets_violated"
   ],
   "note": "C301_alone_partial: each stream is as if alone while the session runs. C301_ends_partial, C301_why_partial: only a panic ends it, and what must have come before. C301_panic_violated, C301_two_packets_violated: one stream can."
  }
 ]
}