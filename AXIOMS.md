# Axioms of each theorem

As printed by `#print axioms`; written by `tools/axioms.py`.

* `Emissary.Stream.C01_bytes_read_are_prefix_of_bytes_written`: propext, Classical.choice, Quot.sound
* `Emissary.Stream.C01_receiver_reads_prefix_in_sequence_order`: propext, Classical.choice, Quot.sound
* `Emissary.Stream.C02_all_packets_received_all_bytes_ready`: propext, Classical.choice, Quot.sound
* `Emissary.Stream.C02_quiescent_stream_delivered_everything`: propext, Classical.choice, Quot.sound
* `Emissary.Stream.C03_close_partial`: propext, Classical.choice, Quot.sound
* `Emissary.Stream.C03_closed_loop_acks_only_delivered_packets`: propext, Classical.choice, Quot.sound
* `Emissary.Stream.C03_acks_only_received_packets_partial`: propext, Classical.choice, Quot.sound
* `Emissary.Stream.C03_nack_limit_violated`: propext, Quot.sound
* `Emissary.Stream.C03_close_violated`: propext, Quot.sound
* `Emissary.Stream.C04_refused_iff_too_far_ahead`: propext, Quot.sound
* `Emissary.Stream.C04_refused_packet_changes_nothing`: propext, Quot.sound
* `Emissary.Stream.C04_accepted_packet_adds_at_most_512_missing`: propext, Classical.choice, Quot.sound
* `Emissary.Stream.C04_never_refuses_own_sender`: propext, Classical.choice, Quot.sound
* `Emissary.Stream.C05_window_bounds`: propext, Classical.choice, Quot.sound
* `Emissary.Stream.C06_written_data_retained_until_acked`: propext, Classical.choice, Quot.sound
* `Emissary.Stream.C06_only_written_data_queued`: propext, Classical.choice, Quot.sound
* `Emissary.Stream.C06_ack_releases_exactly_covered`: propext, Quot.sound
* `Emissary.Stream.C06_ack_of_unsent_data_ignored`: none
* `Emissary.Stream.C06_closed_loop_released_only_when_delivered`: propext, Classical.choice, Quot.sound
* `Emissary.Stream.C07_close_overtakes_data_violated`: propext
* `Emissary.Stream.C07_received_data_violated`: propext, Quot.sound
* `Emissary.Stream.C07_close_waits_for_known_gaps_partial`: propext, Classical.choice, Quot.sound
* `Emissary.Stream.C08_pending_stream_gap_violated`: propext, Quot.sound
* `Emissary.Stream.C08_in_order_handover_partial`: propext, Classical.choice, Quot.sound
* `Emissary.Stream.C08_pending_buffer_bounded`: propext, Quot.sound
* `Emissary.Listener.C09_handed_sockets_were_admitted`: propext, Classical.choice, Quot.sound
* `Emissary.Listener.C09_accept_serves_one_stream`: propext, Classical.choice, Quot.sound
* `Emissary.Listener.C09_pop_never_panics`: propext, Classical.choice, Quot.sound
* `Emissary.Listener.C09_forward_excludes_accept`: propext, Quot.sound
* `Emissary.Listener.C09_refused_request_changes_nothing`: propext
* `Emissary.Listener.C09_accepts_served_in_order`: propext
* `Emissary.Listener.C09_forward_gets_every_stream_partial`: propext
* `Emissary.Listener.C09_late_accept_kills_listener_violated`: propext, Quot.sound
* `Emissary.Listener.C09_failed_forward_kills_listener_violated`: propext, Quot.sound
* `Emissary.Listener.C09_failed_accept_blocks_forward_violated`: propext
* `Emissary.Mgr.C10_packets_reach_only_their_stream`: propext, Classical.choice, Quot.sound
* `Emissary.Mgr.C10_inbound_streams_are_authenticated`: propext, Classical.choice, Quot.sound
* `Emissary.Mgr.C10_unknown_packet_ignored`: propext, Quot.sound
* `Emissary.Mgr.C10_unsigned_syn_ignored`: propext, Classical.choice, Quot.sound
* `Emissary.Pkt.C11_packet_roundtrip`: propext, Classical.choice, Quot.sound
* `Emissary.Pkt.C11_signed_packet_roundtrip`: propext, Classical.choice, Quot.sound
* `Emissary.Pkt.C11_peek_agrees`: propext, Quot.sound
* `Emissary.Pkt.C11_signature_lost_without_destination_violated`: propext, Quot.sound
* `Emissary.Tunnel.C12_reassembly_any_order`: propext, Classical.choice, Quot.sound
* `Emissary.Tunnel.C12_message_survives_outbound_tunnel_partial`: propext, Classical.choice, Quot.sound
* `Emissary.Tunnel.C12_message_survives_inbound_tunnel_partial`: propext, Classical.choice, Quot.sound
* `Emissary.Tunnel.C12_oversized_message_never_delivered_violated`: propext, Classical.choice, Quot.sound
* `Emissary.Tunnel.C13_tunnel_data_fixed_size`: propext, Classical.choice, Quot.sound
* `Emissary.Tunnel.C14_only_complete_messages_partial`: propext, Classical.choice, Quot.sound
* `Emissary.Tunnel.C14_missing_fragment_accepted_violated`: propext, Classical.choice, Quot.sound
* `Emissary.Tunnel.C14_incomplete_message_never_dropped_violated`: propext, Classical.choice, Quot.sound
* `Emissary.Tunnel.C15_whole_payload_consumed`: propext, Classical.choice, Quot.sound
* `Emissary.Tunnel.C15_built_payload_is_found`: propext, Classical.choice, Quot.sound
* `Emissary.Tunnel.C15_accepted_payload_is_checksummed`: propext, Classical.choice, Quot.sound
* `Emissary.I2np.C16_short_header_roundtrip`: propext, Classical.choice, Quot.sound
* `Emissary.I2np.C16_short_header_parse_exact`: propext, Classical.choice, Quot.sound
* `Emissary.I2np.C16_short_header_empty_payload_rejected`: propext, Classical.choice, Quot.sound
* `Emissary.I2np.C17_standard_header_roundtrip`: propext, Classical.choice, Quot.sound
* `Emissary.I2np.C17_standard_header_parse_exact`: propext, Classical.choice, Quot.sound
* `Emissary.I2np.C18_short_header_size_wraps_violated`: propext, Classical.choice, Quot.sound
* `Emissary.I2np.C18_standard_header_size_wraps_violated`: propext, Classical.choice, Quot.sound
* `Emissary.I2np.C18_size_field_exact_up_to_limit_partial`: propext, Classical.choice, Quot.sound
* `Emissary.I2np.C19_tunnel_gateway_roundtrip`: propext, Classical.choice, Quot.sound
* `Emissary.I2np.C19_delivery_status_roundtrip`: propext, Classical.choice, Quot.sound
* `Emissary.I2np.C19_search_reply_roundtrip`: propext, Classical.choice, Quot.sound
* `Emissary.I2np.C19_search_reply_parse_exact`: propext, Classical.choice, Quot.sound
* `Emissary.I2np.C20_database_lookup_roundtrip`: propext, Classical.choice, Quot.sound
* `Emissary.I2np.C20_database_lookup_too_many_excluded`: propext, Classical.choice, Quot.sound
* `Emissary.I2np.C21_store_router_info_roundtrip`: propext, Classical.choice, Quot.sound
* `Emissary.I2np.C21_store_lease_set_roundtrip`: propext, Classical.choice, Quot.sound
* `Emissary.I2np.C21_extract_raw_router_info`: propext, Classical.choice, Quot.sound
* `Emissary.I2np.C21_extract_raw_lease_set`: propext, Quot.sound
* `Emissary.I2np.C21_store_type_reserved_bits`: propext, Quot.sound
* `Emissary.I2np.C21_store_type_values`: propext, Quot.sound
* `Emissary.Garlic.C22_garlic_message_roundtrip`: propext, Classical.choice, Quot.sound
* `Emissary.Garlic.C22_padding_block_parsed`: propext, Classical.choice, Quot.sound
* `Emissary.Garlic.C22_ack_block_exact`: propext, Classical.choice, Quot.sound
* `Emissary.Garlic.C22_garlic_tag`: propext, Classical.choice, Quot.sound
* `Emissary.Build.C23_short_record_size`: propext
* `Emissary.Build.C23_short_record_roundtrip`: propext, Classical.choice, Quot.sound
* `Emissary.Build.C23_build_message_layout`: propext, Quot.sound
* `Emissary.Prim.C24_string_roundtrip`: propext, Classical.choice, Quot.sound
* `Emissary.Prim.C24_string_parse_exact`: propext, Classical.choice, Quot.sound
* `Emissary.Prim.C24_checked_string_roundtrip`: propext, Classical.choice, Quot.sound
* `Emissary.Prim.C25_mapping_layout`: propext
* `Emissary.Prim.C25_mappings_roundtrip`: propext, Classical.choice, Quot.sound
* `Emissary.Prim.C25_into_hashmap_last_wins`: propext, Quot.sound
* `Emissary.Prim.C25_announced_size_overrun_violated`: propext, Classical.choice, Quot.sound
* `Emissary.Prim.C26_destination_parse_exact`: propext, Classical.choice, Quot.sound
* `Emissary.Prim.C26_new_destination_roundtrip`: propext, Classical.choice, Quot.sound
* `Emissary.Prim.C27_router_identity_parse_exact`: propext, Classical.choice, Quot.sound
* `Emissary.Prim.C27_new_identity_roundtrip`: propext, Classical.choice, Quot.sound
* `Emissary.Prim.C28_built_lease_set_roundtrip_partial`: propext, Classical.choice, Quot.sound
* `Emissary.Prim.C28_parsed_lease_set_expiry_changes_violated`: propext, Classical.choice, Quot.sound
* `Emissary.Prim.C29_lease_set_signature`: propext, Classical.choice, Quot.sound
* `Emissary.Ntcp2.C30_options_extra_skipped`: propext, Classical.choice, Quot.sound
* `Emissary.Ntcp2.C30_termination_extra_skipped`: propext, Classical.choice, Quot.sound
* `Emissary.Ntcp2.C30_blocks_roundtrip`: propext, Classical.choice, Quot.sound
* `Emissary.Ntcp2.C30_whole_frame_consumed`: propext, Classical.choice, Quot.sound
* `Emissary.Ntcp2.C30_complete`: propext, Quot.sound
* `Emissary.Ntcp2.C30_emitted_blocks`: propext, Quot.sound
* `Emissary.Ntcp2.C31_initiator_options_roundtrip`: propext, Classical.choice, Quot.sound
* `Emissary.Ntcp2.C31_responder_options_roundtrip`: propext, Classical.choice, Quot.sound
* `Emissary.Ntcp2.C32_termination_reason`: propext, Quot.sound
* `Emissary.Ntcp2.C32_segmentation_independent_partial`: propext, Classical.choice, Quot.sound
* `Emissary.Ntcp2.C32_two_segmentations_agree_partial`: propext, Classical.choice, Quot.sound
* `Emissary.Ntcp2.C32_unparseable_frame_desynchronises_violated`: propext, Quot.sound
* `Emissary.Ntcp2.C33_lengths_stay_synchronised`: propext, Quot.sound
* `Emissary.Ntcp2.C34_nonces_never_repeat`: propext, Classical.choice, Quot.sound
* `Emissary.Ntcp2.C34_exhaustion_is_an_error`: propext
* `Emissary.Ssu2.C35_acks_exactly_received_partial`: propext, Classical.choice, Quot.sound
* `Emissary.Ssu2.C35_top_range_sound_partial`: propext, Classical.choice, Quot.sound
* `Emissary.Ssu2.C35_order_independent`: propext, Classical.choice, Quot.sound
* `Emissary.Ssu2.C35_long_gap_acks_unreceived_violated`: propext, Classical.choice, Quot.sound
* `Emissary.Ssu2.C36_reassembly_any_order`: propext, Classical.choice, Quot.sound
* `Emissary.Ssu2.C37_fresh_iff_not_accepted_recently_partial`: propext, Quot.sound
* `Emissary.Ssu2.C37_fresh_accepted`: propext, Quot.sound
* `Emissary.Ssu2.C37_duplicate_in_generation_rejected`: propext, Quot.sound
* `Emissary.Ssu2.C37_rejected_not_remembered_violated`: propext, Quot.sound
* `Emissary.Ssu2.C38_blocks_roundtrip`: propext, Classical.choice, Quot.sound
* `Emissary.Ssu2.C38_serializer`: propext
* `Emissary.Ssu2.C38_other_types`: propext, Classical.choice, Quot.sound
* `Emissary.Ssu2.C38_accepts_exactly_block_sequences`: propext, Classical.choice, Quot.sound
* `Emissary.Ssu2.C38_release_never_panics_partial`: propext
* `Emissary.Ssu2.C38_checked_panics_iff`: propext, Classical.choice, Quot.sound
* `Emissary.Ssu2.C38_panic_violated`: propext
* `Emissary.Ssu2.C38_size_field_not_honoured_violated`: propext, Classical.choice, Quot.sound
* `Emissary.Ssu2.C39_no_false_negatives`: propext, Classical.choice, Quot.sound
* `Emissary.Ssu2.C39_fresh_filter_accepts`: propext
* `Emissary.Netdb.C40_symmetric`: propext, Quot.sound
* `Emissary.Netdb.C40_zero_iff_equal`: propext, Classical.choice, Quot.sound
* `Emissary.Netdb.C40_triangle`: propext, Classical.choice, Quot.sound
* `Emissary.Netdb.C40_unidirectional`: propext, Classical.choice, Quot.sound
* `Emissary.Netdb.C40_first_byte_decides`: propext, Quot.sound
* `Emissary.Netdb.C41_buckets_bounded_and_distinct`: propext, Classical.choice, Quot.sound
* `Emissary.Netdb.C41_eviction`: propext, Classical.choice, Quot.sound
* `Emissary.Netdb.C41_responsive_router_stays`: propext, Classical.choice, Quot.sound
* `Emissary.Netdb.C42_lookup_returns_nearest_in_order`: propext, Classical.choice, Quot.sound
* `Emissary.Netdb.C42_closest_is_lookup`: propext, Quot.sound
* `Emissary.Netdb.C42_results_distinct_partial`: propext, Classical.choice, Quot.sound
* `Emissary.Netdb.C42_router_returned_twice_violated`: propext, Classical.choice, Quot.sound
* `Emissary.Netdb.C42_get_closest`: propext, Classical.choice, Quot.sound
* `Emissary.Netdb.C42_get_n_closest`: propext, Classical.choice, Quot.sound
* `Emissary.TBuild.C43_limit_holds`: propext, Quot.sound
* `Emissary.TBuild.C43_disabled_has_none`: propext, Quot.sound
* `Emissary.TBuild.C43_none_accepted_after_shutdown`: propext, Quot.sound
* `Emissary.TBuild.C43_accepts_only_with_room`: propext, Quot.sound
* `Emissary.Routing.C44_ids_are_not_taken_over`: propext, Quot.sound
* `Emissary.Routing.C44_messages_go_to_the_owner`: propext, Quot.sound
* `Emissary.Routing.C44_dropped_receiver_is_noticed`: propext, Quot.sound
* `Emissary.Routing.C44_owner_receives_in_order`: propext, Quot.sound
* `Emissary.Routing.C45_id_given_while_free`: propext, Quot.sound
* `Emissary.Routing.C45_listener_hears_the_first_message_once`: propext, Quot.sound
* `Emissary.Routing.C45_other_messages_go_to_transit`: propext, Quot.sound
* `Emissary.Tunnel.C46_outbound_layers_cancel`: propext, Classical.choice, Quot.sound
* `Emissary.Tunnel.C46_inbound_layers_cancel`: propext, Classical.choice, Quot.sound
* `Emissary.Tunnel.C46_forwarded_size`: propext, Classical.choice, Quot.sound
* `Emissary.Profile.C47_counts`: propext, Classical.choice, Quot.sound
* `Emissary.Profile.C47_exact_partial`: propext, Classical.choice, Quot.sound
* `Emissary.Profile.C47_pool_shutdown_violated`: propext, Classical.choice, Quot.sound
* `Emissary.Profile.C48_subnets`: propext, Classical.choice, Quot.sound
* `Emissary.Profile.C48_secure_partial`: propext, Classical.choice, Quot.sound
* `Emissary.Profile.C48_same_router_violated`: propext, Classical.choice, Quot.sound
* `Emissary.Profile.C48_insecure_partial`: propext, Classical.choice, Quot.sound
* `Emissary.Profile.C48_insecure_violated`: propext, Classical.choice, Quot.sound
* `Emissary.Profile.C49_declining_partial`: propext, Quot.sound
* `Emissary.Profile.C49_unreachable_violated`: propext
* `Emissary.Profile.C49_times_recorded_partial`: propext, Quot.sound
* `Emissary.Profile.C49_counters_partial`: propext, Quot.sound
* `Emissary.Profile.C49_failing_partial`: propext, Classical.choice, Quot.sound
* `Emissary.Profile.C49_standing_partial`: propext, Classical.choice, Quot.sound
* `Emissary.Profile.C50_known_routers_partial`: propext, Classical.choice, Quot.sound
* `Emissary.Profile.C50_new_routers_violated`: propext, Classical.choice, Quot.sound
* `Emissary.Profile.C50_fresh_partial`: propext, Classical.choice, Quot.sound
* `Emissary.Profile.C50_never_lost_partial`: propext, Classical.choice, Quot.sound
* `Emissary.Profile.C50_two_buckets_violated`: propext, Quot.sound
* `Emissary.Profile.C50_maintained_partial`: propext, Classical.choice, Quot.sound
* `Emissary.RPath.C51_outbound_choice`: propext, Classical.choice, Quot.sound
* `Emissary.RPath.C51_lease_choice`: propext, Classical.choice, Quot.sound
* `Emissary.RPath.C51_expiring_partial`: propext, Quot.sound
* `Emissary.RPath.C51_lease_partial`: propext, Quot.sound
* `Emissary.RPath.C51_dead_end_violated`: propext, Quot.sound
* `Emissary.RPath.C51_expired_lease_violated`: propext, Quot.sound
* `Emissary.RPath.C51_collision_violated`: propext, Quot.sound
* `Emissary.RPath.C51_faulty_last`: propext, Classical.choice, Quot.sound
* `Emissary.RPath.C51_outbound_partial`: propext, Classical.choice, Quot.sound
* `Emissary.RPath.C51_no_panic_partial`: propext, Classical.choice, Quot.sound
* `Emissary.Routing.C52_batch_is_partitioned_partial`: propext, Quot.sound
* `Emissary.Routing.C52_every_message_delivered_in_order_partial`: propext, Quot.sound
* `Emissary.Routing.C52_full_queue_loses_messages_violated`: propext, Classical.choice, Quot.sound
* `Emissary.Routing.C53_complete_iff_every_subsystem_finished`: propext, Classical.choice, Quot.sound
* `Emissary.Ecies.C54_counts`: propext, Classical.choice, Quot.sound
* `Emissary.Ecies.C54_single_use`: propext, Classical.choice, Quot.sound
* `Emissary.Ratchet.C55_increasing`: propext, Classical.choice, Quot.sound
* `Emissary.Ratchet.C55_stops`: propext, Quot.sound
* `Emissary.Ratchet.C55_stops_ratchet`: propext, Quot.sound
* `Emissary.Ratchet.C55_keys`: propext, Quot.sound
* `Emissary.Ratchet.C56_no_wrap`: propext, Classical.choice, Quot.sound
* `Emissary.Ratchet.C56_lockstep_partial`: propext, Classical.choice, Quot.sound
* `Emissary.Ratchet.C56_terminates_partial`: propext, Classical.choice, Quot.sound
* `Emissary.Ratchet.C56_advances_partial`: propext, Classical.choice, Quot.sound
* `Emissary.Ratchet.C56_stale_violated`: propext, Quot.sound
* `Emissary.Ratchet.C56_stale_keys_violated`: propext, Quot.sound
* `Emissary.Ratchet.C56_duplicate_violated`: propext, Quot.sound
* `Emissary.Ratchet.C56_unasked_violated`: propext
* `Emissary.Prim.C57_published_address_preferred`: propext, Quot.sound
* `Emissary.Prim.C57_parse_addresses`: propext, Quot.sound
* `Emissary.Prim.C57_router_address_roundtrip`: propext, Classical.choice, Quot.sound
* `Emissary.Prim.C57_router_info_roundtrip`: propext, Classical.choice, Quot.sound
* `Emissary.Prim.C58_router_info_signature`: propext, Classical.choice, Quot.sound
* `Emissary.Prim.C59_transient_key_is_certified_partial`: propext, Classical.choice, Quot.sound
* `Emissary.Prim.C59_certified_transient_key_accepted_partial`: propext, Classical.choice, Quot.sound
* `Emissary.Prim.C59_expired_transient_key_accepted_violated`: propext, Classical.choice, Quot.sound
* `Emissary.Prim.C59_dsa_destination_never_accepted_violated`: propext, Quot.sound
* `Emissary.Prim.C60_lease_set_live_iff`: propext, Classical.choice, Quot.sound
* `Emissary.Prim.C60_expiration_is_earliest`: propext, Quot.sound
* `Emissary.Garlic.C61_unsupported_block_skipped_partial`: propext, Classical.choice, Quot.sound
* `Emissary.Garlic.C61_trailing_unsupported_block_drops_message_violated`: propext, Classical.choice, Quot.sound
* `Emissary.Build.C62_variable_record_parsed_partial`: propext, Classical.choice, Quot.sound
* `Emissary.Build.C62_variable_record_options_rejected_violated`: propext, Classical.choice, Quot.sound
* `Emissary.Mgr.C63_outbound_streams_were_requested_partial`: propext, Classical.choice, Quot.sound
* `Emissary.Mgr.C63_any_destination_completes_connection_violated`: propext, Classical.choice, Quot.sound
* `Emissary.Mgr.C64_active_streams_kept_partial`: propext, Quot.sound
* `Emissary.Mgr.C64_remove_session_drops_other_stream_violated`: propext, Classical.choice, Quot.sound
* `Emissary.Mgr.C64_late_completion_drops_new_stream_violated`: propext, Classical.choice, Quot.sound
* `Emissary.Mgr.C65_syn_accepted`: propext, Classical.choice, Quot.sound
* `Emissary.Mgr.C65_syn_waits_for_listener`: propext, Classical.choice, Quot.sound
* `Emissary.Mgr.C65_syn_ack_completes`: propext, Classical.choice, Quot.sound
* `Emissary.Mgr.C66_no_new_streams_while_shutting_down`: propext, Quot.sound
* `Emissary.Mgr.C66_shutdown_when_last_stream_finishes_partial`: propext, Classical.choice, Quot.sound
* `Emissary.Mgr.C66_shutdown_without_streams_waits_for_timer_violated`: propext, Quot.sound
* `Emissary.Mgr.C66_stream_opened_after_shutdown_violated`: propext, Classical.choice, Quot.sound
* `Emissary.Mgr.C67_repeated_syn_unanswered_violated`: propext, Classical.choice, Quot.sound
* `Emissary.Ntcp2.C68_only_expired_dropped`: propext, Quot.sound
* `Emissary.Ntcp2.C68_in_order_exactly_once_partial`: propext, Classical.choice, Quot.sound
* `Emissary.Ntcp2.C68_oversized_message_misframed_violated`: propext, Classical.choice, Quot.sound
* `Emissary.Mgr.C69_new_stream_takes_free_id`: propext, Quot.sound
* `Emissary.Mgr.C70_connection_attempts_bounded`: propext, Quot.sound
* `Emissary.Mgr.C70_unanswered_request_is_rejected`: propext, Quot.sound
* `Emissary.Ssu2.C71_ack_state_unbounded_violated`: propext, Classical.choice, Quot.sound
* `Emissary.Ssu2.C72_delivered_exactly_once_partial`: propext, Classical.choice, Quot.sound
* `Emissary.Ssu2.C72_message_lost_violated`: propext, Quot.sound
* `Emissary.Prim.C73_socket`: propext, Classical.choice, Quot.sound
* `Emissary.Prim.C73_reachable`: propext, Classical.choice, Quot.sound
* `Emissary.Prim.C73_capability_letters`: propext
* `Emissary.Prim.C73_speed`: propext
* `Emissary.Ssu2.C74_data_packet_delivered`: propext, Classical.choice, Quot.sound
* `Emissary.Ssu2.C74_contents_delivered`: propext, Classical.choice, Quot.sound
* `Emissary.Ssu2.C74_retry_token_violated`: propext, Classical.choice, Quot.sound
* `Emissary.Ssu2.C74_retry_token_example_violated`: none
* `Emissary.Ssu2.C75_handshake_agreement`: propext, Classical.choice, Quot.sound
* `Emissary.Ssu2.C75_keys_per_specification`: propext, Classical.choice, Quot.sound
* `Emissary.Ssu2.C76_datagram_panics_violated`: propext, Classical.choice, Quot.sound
* `Emissary.Ssu2.C76_long_and_short_datagrams_partial`: propext, Quot.sound
* `Emissary.Ssu2.C77_termination_panics_violated`: propext, Quot.sound
* `Emissary.Ssu2.C78_own_key`: propext, Quot.sound
* `Emissary.Ssu2.C78_dialled_key_partial`: propext, Quot.sound
* `Emissary.Ssu2.C78_only_the_addressee`: propext, Quot.sound
* `Emissary.Ssu2.C78_dialled_packet_dropped_violated`: propext, Classical.choice, Quot.sound
* `Emissary.Ssu2.C79_impersonation_violated`: propext, Classical.choice, Quot.sound
* `Emissary.Ssu2.C80_dialled_id_violated`: propext, Classical.choice, Quot.sound
* `Emissary.Ssu2.C81_bad_packet_ends_dial_violated`: propext, Classical.choice, Quot.sound
* `Emissary.Ssu2.C81_bad_packet_ends_accept_violated`: propext, Classical.choice, Quot.sound
* `Emissary.Ssu2.C81_any_error_is_final_violated`: propext, Quot.sound
* `Emissary.Ssu2.C82_bounded_retransmission`: propext, Quot.sound
* `Emissary.Ssu2.C82_schedules`: none
* `Emissary.Ssu2.C82_inbound_never_times_out_violated`: none
* `Emissary.Ssu2.C83_any_token_accepted_violated`: propext, Classical.choice, Quot.sound
* `Emissary.Ssu2.C84_nonces_distinct_partial`: propext, Classical.choice, Quot.sound
* `Emissary.Ssu2.C84_nonce_reuse_violated`: propext, Classical.choice, Quot.sound
* `Emissary.Ntcp2.C85_handshake_agrees`: propext, Classical.choice, Quot.sound
* `Emissary.Ntcp2.C85_session_carries_messages`: propext, Classical.choice, Quot.sound
* `Emissary.Ntcp2.C86_accepted_router_is_on_network`: propext, Classical.choice, Quot.sound
* `Emissary.Ntcp2.C86_other_network_or_version_refused`: propext, Classical.choice, Quot.sound
* `Emissary.Ntcp2.C86_not_dialled`: propext, Quot.sound
* `Emissary.Ntcp2.C87_static_key_not_bound_violated`: propext, Classical.choice, Quot.sound
* `Emissary.Ntcp2.C88_accept_never_panics`: propext, Quot.sound
* `Emissary.Ntcp2.C88_dial_never_panics_partial`: propext, Quot.sound
* `Emissary.Ntcp2.C88_large_router_info_panics_violated`: propext, Quot.sound
* `Emissary.Ntcp2.C89_stale_request_answered_violated`: propext, Classical.choice, Quot.sound
* `Emissary.Netdb.C90_best_floodfills_kept`: propext, Classical.choice, Quot.sound
* `Emissary.Transport.C91_at_most_one_connection`: propext, Quot.sound
* `Emissary.Transport.C92_not_dialled_twice_at_once`: propext, Quot.sound
* `Emissary.Transport.C93_locked_out_forever_violated`: propext, Quot.sound
* `Emissary.Transport.C94_request_starts_a_dial_partial`: propext, Quot.sound
* `Emissary.Transport.C94_request_forgotten_violated`: propext, Quot.sound
* `Emissary.Transport.C95_sent_in_order_and_confirmed_when_handed_over`: propext, Classical.choice, Quot.sound
* `Emissary.Transport.C96_messages_kept_while_dialling`: propext, Classical.choice, Quot.sound
* `Emissary.Transport.C96_first_message_dials`: propext
* `Emissary.Transport.C97_connection_forgotten_violated`: propext, Classical.choice, Quot.sound
* `Emissary.Transport.C98_received_message_partial`: none
* `Emissary.Transport.C98_peer_message_panics_violated`: propext
* `Emissary.Transport.C98_duplicates_routed_violated`: propext
* `Emissary.Transport.C99_clove_for_other_router`: propext, Quot.sound
* `Emissary.Transport.C99_clove_for_this_router_violated`: propext, Quot.sound
* `Emissary.Transport.C100_send_partial`: propext, Classical.choice, Quot.sound
* `Emissary.Transport.C100_send_with_feedback_partial`: propext, Classical.choice, Quot.sound
* `Emissary.Transport.C100_local_feedback_violated`: propext, Classical.choice, Quot.sound
* `Emissary.TBuild.C101_outbound_build`: propext, Classical.choice, Quot.sound
* `Emissary.TBuild.C101_inbound_build`: propext, Classical.choice, Quot.sound
* `Emissary.TBuild.C102_tunnels_linked`: propext
* `Emissary.TBuild.C102_outbound_tunnel_carries_messages`: propext, Classical.choice, Quot.sound
* `Emissary.TBuild.C102_inbound_tunnel_carries_messages`: propext, Classical.choice, Quot.sound
* `Emissary.TBuild.C103_failure_report_violated`: propext, Classical.choice, Quot.sound
* `Emissary.TBuild.C103_failure_report_mirrored`: propext, Quot.sound
* `Emissary.TBuild.C103_failure_report_partial`: propext, Quot.sound
* `Emissary.TBuild.C104_tunnels_reachable`: propext, Quot.sound
* `Emissary.TBuild.C105_short_garlic_violated`: propext, Quot.sound
* `Emissary.TBuild.C105_short_garlic_reply_violated`: propext, Quot.sound
* `Emissary.TBuild.C105_other_messages_partial`: propext, Quot.sound
* `Emissary.TBuild.C105_other_replies_partial`: propext, Classical.choice, Quot.sound
* `Emissary.TBuild.C106_reply_options_violated`: propext, Quot.sound
* `Emissary.TBuild.C107_expired_request_violated`: propext, Classical.choice, Quot.sound
* `Emissary.TBuild.C107_replayed_request_violated`: propext, Classical.choice, Quot.sound
* `Emissary.Profile.C108_never_fails`: propext, Classical.choice, Quot.sound
* `Emissary.Profile.C108_lookup`: propext, Classical.choice, Quot.sound
* `Emissary.Profile.C108_clock_violated`: propext
* `Emissary.Profile.C109_profile_is_history`: propext, Classical.choice, Quot.sound
* `Emissary.TBuild.C110_established_iff_all_agree`: propext, Classical.choice, Quot.sound
* `Emissary.TBuild.C110_no_reply_no_tunnel`: propext, Quot.sound
* `Emissary.TBuild.C110_failure_names_someone`: propext, Classical.choice, Quot.sound
* `Emissary.TBuild.C111_long_request_answered`: propext, Classical.choice, Quot.sound
* `Emissary.Profile.C112_backup_complete`: propext, Classical.choice, Quot.sound
* `Emissary.Profile.C113_enough`: propext, Classical.choice, Quot.sound
* `Emissary.Profile.C113_total`: propext, Classical.choice, Quot.sound
* `Emissary.Profile.C113_failing_last`: propext, Classical.choice, Quot.sound
* `Emissary.Profile.C113_ready`: propext, Classical.choice, Quot.sound
* `Emissary.Profile.C113_records`: propext, Classical.choice, Quot.sound
* `Emissary.Ecies.C114_request_spec`: propext
* `Emissary.Ecies.C114_request`: propext, Quot.sound
* `Emissary.Ecies.C114_established`: propext, Classical.choice, Quot.sound
* `Emissary.Ecies.C114_numbers`: propext, Classical.choice, Quot.sound
* `Emissary.Ecies.C114_recipient`: propext, Quot.sound
* `Emissary.Ecies.C115_sent_partial`: propext, Classical.choice, Quot.sound
* `Emissary.Ecies.C115_delivery_partial`: propext, Classical.choice, Quot.sound
* `Emissary.Ecies.C115_readable_partial`: propext, Classical.choice, Quot.sound
* `Emissary.Ecies.C115_damaged_partial`: propext, Quot.sound
* `Emissary.Ecies.C115_unreadable_partial`: propext, Quot.sound
* `Emissary.Ecies.C115_deaf_violated`: propext, Classical.choice, Quot.sound
* `Emissary.Ecies.C115_encrypt_partial`: propext, Quot.sound
* `Emissary.Ecies.C115_initiator_partial`: propext, Classical.choice, Quot.sound
* `Emissary.Ecies.C116_replay_violated`: propext, Quot.sound
* `Emissary.Ecies.C116_replay_keeps_partial`: propext, Quot.sound
* `Emissary.Ecies.C117_left_violated`: none
* `Emissary.Ecies.C117_late_reply_violated`: propext, Quot.sound
* `Emissary.Ecies.C117_damaged_reply_violated`: propext, Quot.sound
* `Emissary.Ecies.C117_damaged_first_violated`: propext, Quot.sound
* `Emissary.Ecies.C117_broken_violated`: propext, Quot.sound
* `Emissary.Ecies.C117_broken_receive_violated`: propext, Quot.sound
* `Emissary.Ecies.C118_short_violated`: propext, Quot.sound
* `Emissary.Ecies.C118_ack_violated`: propext, Quot.sound
* `Emissary.Ecies.C118_short_reply_violated`: propext
* `Emissary.Ecies.C118_release_partial`: propext, Quot.sound
* `Emissary.Ecies.C119_conversation_partial`: propext, Classical.choice, Quot.sound
* `Emissary.Ecies.C119_established_partial`: propext, Classical.choice, Quot.sound
* `Emissary.Ecies.C119_first_messages_partial`: propext, Classical.choice, Quot.sound
* `Emissary.Ecies.C119_simultaneous_violated`: propext, Quot.sound
* `Emissary.Ecies.C120_restart_violated`: propext, Classical.choice, Quot.sound
* `Emissary.Ecies.C121_bundled_partial`: propext, Quot.sound
* `Emissary.Ecies.C121_older_ack_violated`: propext, Quot.sound
* `Emissary.Ecies.C121_publish_partial`: propext, Classical.choice, Quot.sound
* `Emissary.Ecies.C122_kept_partial`: propext, Quot.sound
* `Emissary.Ecies.C122_sending_violated`: propext, Quot.sound
* `Emissary.Ecies.C123_tags_partial`: propext, Quot.sound
* `Emissary.Ecies.C123_later_reply_violated`: propext, Quot.sound
* `Emissary.RPath.C124_gives_up`: propext, Classical.choice, Quot.sound
* `Emissary.RPath.C124_asks`: propext, Classical.choice, Quot.sound
* `Emissary.RPath.C125_one_query`: propext, Classical.choice, Quot.sound
* `Emissary.RPath.C125_answered`: propext, Quot.sound
* `Emissary.RPath.C126_handle_fresh`: propext, Quot.sound
* `Emissary.RPath.C126_copies_violated`: propext, Classical.choice, Quot.sound
* `Emissary.RPath.C126_fresh`: propext, Quot.sound
* `Emissary.Ecies.C127_tags`: propext, Classical.choice, Quot.sound
* `Emissary.Ecies.C127_session`: propext, Classical.choice, Quot.sound
* `Emissary.PoolCtx.C128_once`: propext, Quot.sound
* `Emissary.PoolCtx.C128_right`: propext, Quot.sound
* `Emissary.PoolCtx.C128_reply`: propext, Quot.sound
* `Emissary.PoolCtx.C128_garlic`: propext, Quot.sound
* `Emissary.PoolCtx.C128_owner`: propext, Quot.sound
* `Emissary.PoolCtx.C128_short_garlic_violated`: propext, Quot.sound
* `Emissary.PoolCtx.C128_safe_partial`: propext, Quot.sound
* `Emissary.Pool.C129_late_violated`: propext, Classical.choice, Quot.sound
* `Emissary.Pool.C129_bound_partial`: propext, Classical.choice, Quot.sound
* `Emissary.Pool.C130_total`: propext, Classical.choice, Quot.sound
* `Emissary.Pool.C130_refill`: propext, Classical.choice, Quot.sound
* `Emissary.Pool.C130_ten_seconds`: propext, Classical.choice, Quot.sound
* `Emissary.Pool.C131_order`: propext, Quot.sound
* `Emissary.Pool.C131_view_partial`: propext, Quot.sound
* `Emissary.Pool.C131_lost_violated`: propext, Classical.choice, Quot.sound
* `Emissary.Pool.C132_table`: propext, Classical.choice, Quot.sound
* `Emissary.Pool.C132_shutdown_violated`: propext, Classical.choice, Quot.sound
* `Emissary.Pool.C133_no_panic`: propext, Classical.choice, Quot.sound
* `Emissary.Pool.C134_crash_violated`: propext, Quot.sound
* `Emissary.Pool.C134_runs_partial`: propext, Classical.choice, Quot.sound
* `Emissary.NetdbRun.C135_once`: propext, Quot.sound
* `Emissary.NetdbRun.C135_in_time`: propext, Classical.choice, Quot.sound
* `Emissary.NetdbRun.C136_mismatch_violated`: propext, Quot.sound
* `Emissary.NetdbRun.C136_overwrite_violated`: propext, Quot.sound
* `Emissary.NetdbRun.C136_busy_violated`: propext
* `Emissary.NetdbRun.C136_cause_partial`: propext, Quot.sound
* `Emissary.NetdbRun.C137_violated`: propext
* `Emissary.NetdbRun.C137_source_partial`: propext, Classical.choice, Quot.sound
* `Emissary.NetdbRun.C138_lease_set`: propext, Classical.choice, Quot.sound
* `Emissary.NetdbRun.C138_router_info_violated`: propext
* `Emissary.NetdbRun.C138_first`: propext
* `Emissary.NetdbRun.C139_dial_once`: propext, Quot.sound
* `Emissary.NetdbRun.C139_kept`: propext, Quot.sound
* `Emissary.NetdbRun.C139_flush`: propext, Quot.sound
* `Emissary.NetdbRun.C139_connected_partial`: propext, Quot.sound
* `Emissary.NetdbRun.C139_answer_violated`: propext
* `Emissary.NetdbRun.C140_lease_set`: propext, Quot.sound
* `Emissary.NetdbRun.C140_router_info`: propext, Quot.sound
* `Emissary.NetdbRun.C140_exploration`: propext, Quot.sound
* `Emissary.NetdbRun.C140_not_floodfill`: propext
* `Emissary.NetdbRun.C140_any_violated`: propext
* `Emissary.NetdbRun.C141_stored`: propext, Classical.choice, Quot.sound
* `Emissary.NetdbRun.C141_expired`: propext, Classical.choice, Quot.sound
* `Emissary.NetdbRun.C141_served_partial`: propext, Classical.choice, Quot.sound
* `Emissary.NetdbRun.C141_pruned`: propext, Quot.sound
* `Emissary.NetdbRun.C141_early_violated`: propext, Quot.sound
* `Emissary.NetdbRun.C141_replaced_violated`: propext, Classical.choice, Quot.sound
* `Emissary.NetdbRun.C142_accepted_partial`: propext, Quot.sound
* `Emissary.NetdbRun.C142_forever_violated`: propext, Quot.sound
* `Emissary.NetdbRun.C142_foreign_violated`: propext, Quot.sound
* `Emissary.NetdbRun.C143_checked_partial`: propext, Quot.sound
* `Emissary.NetdbRun.C143_query_violated`: propext
* `Emissary.NetdbRun.C143_age_violated`: propext
* `Emissary.NetdbRun.C144_ready`: propext, Classical.choice, Quot.sound
* `Emissary.NetdbRun.C145_fair`: propext, Classical.choice, Quot.sound
* `Emissary.NetdbRun.C145_live`: propext, Quot.sound
* `Emissary.NetdbRun.C146_interval`: propext, Classical.choice, Quot.sound
* `Emissary.NetdbRun.C146_interval_violated`: propext, Quot.sound
* `Emissary.NetdbRun.C146_explores`: propext, Quot.sound
* `Emissary.NetdbRun.C146_floodfill`: propext, Quot.sound
* `Emissary.NetdbRun.C146_fetches`: propext, Quot.sound
* `Emissary.NetdbRun.C147_asked_partial`: propext, Quot.sound
* `Emissary.NetdbRun.C147_early_violated`: propext, Quot.sound
* `Emissary.NetdbRun.C148_silent`: propext, Quot.sound
* `Emissary.NetdbRun.C148_refused`: propext, Classical.choice, Quot.sound
* `Emissary.NetdbRun.C148_flooded`: propext, Classical.choice, Quot.sound
* `Emissary.NetdbRun.C148_published`: propext, Quot.sound
* `Emissary.NetdbRun.C148_twice_violated`: propext
* `Emissary.Dest.C149_one`: propext, Quot.sound
* `Emissary.Dest.C149_status`: propext, Classical.choice, Quot.sound
* `Emissary.Dest.C149_answered`: propext, Quot.sound
* `Emissary.Dest.C149_tries`: propext, Quot.sound
* `Emissary.Dest.C149_outcome`: propext, Quot.sound
* `Emissary.Dest.C150_no_panic`: propext, Classical.choice, Quot.sound
* `Emissary.Dest.C150_debug_violated`: propext, Quot.sound
* `Emissary.Dest.C150_latest`: propext, Quot.sound
* `Emissary.Dest.C150_known`: propext, Quot.sound
* `Emissary.Dest.C150_send`: propext, Classical.choice, Quot.sound
* `Emissary.Dest.C150_announced`: propext, Quot.sound
* `Emissary.Dest.C151_conserved`: propext, Classical.choice, Quot.sound
* `Emissary.Dest.C151_released`: propext, Classical.choice, Quot.sound
* `Emissary.Dest.C151_overtaken_violated`: propext, Classical.choice, Quot.sound
* `Emissary.Dest.C151_stuck_violated`: propext, Classical.choice, Quot.sound
* `Emissary.Dest.C152_signed_partial`: propext, Quot.sound
* `Emissary.Dest.C152_stale_violated`: propext, Classical.choice, Quot.sound
* `Emissary.Dest.C152_foreign_violated`: propext, Quot.sound
* `Emissary.Dest.C153_kept_partial`: propext, Classical.choice, Quot.sound
* `Emissary.Dest.C153_refreshed_violated`: propext, Classical.choice, Quot.sound
* `Emissary.Dest.C154_messages`: propext, Quot.sound
* `Emissary.Dest.C155_told_partial`: propext, Quot.sound
* `Emissary.Dest.C155_asked_partial`: propext, Quot.sound
* `Emissary.Dest.C155_routes_partial`: propext, Quot.sound
* `Emissary.Dest.C155_dropped_violated`: propext, Classical.choice, Quot.sound
* `Emissary.Publish.C156_unpublished`: propext, Quot.sound
* `Emissary.Publish.C157_closest`: propext, Classical.choice, Quot.sound
* `Emissary.Publish.C157_current`: propext, Quot.sound
* `Emissary.Publish.C157_known`: propext, Classical.choice, Quot.sound
* `Emissary.Publish.C157_learned`: propext, Quot.sound
* `Emissary.Publish.C157_remembered`: propext, Classical.choice, Quot.sound
* `Emissary.Publish.C158_paced`: propext, Classical.choice, Quot.sound
* `Emissary.Publish.C158_started`: propext, Classical.choice, Quot.sound
* `Emissary.Publish.C159_confirmed_partial`: propext, Quot.sound
* `Emissary.Publish.C159_forged_violated`: propext, Quot.sound
* `Emissary.Publish.C159_other`: propext, Quot.sound
* `Emissary.Publish.C160_poll_ends`: propext, Classical.choice, Quot.sound
* `Emissary.Publish.C160_waits`: propext, Classical.choice, Quot.sound
* `Emissary.Publish.C160_soon`: propext, Quot.sound
* `Emissary.Publish.C160_again`: propext, Classical.choice, Quot.sound
* `Emissary.Publish.C161_ends_violated`: propext, Quot.sound
* `Emissary.Publish.C161_only_partial`: propext, Quot.sound
* `Emissary.Publish.C162_steered_violated`: propext, Classical.choice, Quot.sound
* `Emissary.Publish.C162_other_partial`: propext, Quot.sound
* `Emissary.SamSocket.C163_order`: propext, Quot.sound
* `Emissary.SamSocket.C163_kept`: propext, Quot.sound
* `Emissary.SamSocket.C163_flushed`: propext, Quot.sound
* `Emissary.SamSocket.C164_lines_partial`: propext, Classical.choice, Quot.sound
* `Emissary.SamSocket.C164_first_partial`: propext, Classical.choice, Quot.sound
* `Emissary.SamSocket.C164_together_violated`: propext, Classical.choice, Quot.sound
* `Emissary.SamSocket.C164_stale_violated`: propext, Classical.choice, Quot.sound
* `Emissary.SamSocket.C164_long_violated`: propext, Quot.sound
* `Emissary.SamParser.C165_forward`: propext, Classical.choice, Quot.sound
* `Emissary.SamParser.C165_hyphen_violated`: propext, Classical.choice, Quot.sound
* `Emissary.SamParser.C165_escaped_violated`: propext, Classical.choice, Quot.sound
* `Emissary.SamParser.C165_empty_violated`: propext, Classical.choice, Quot.sound
* `Emissary.SamParser.C165_value_ends`: propext, Classical.choice, Quot.sound
* `Emissary.SamParser.C165_hello`: propext, Classical.choice, Quot.sound
* `Emissary.SamParser.C165_versions`: propext, Classical.choice, Quot.sound
* `Emissary.SamParser.C165_create_partial`: propext, Classical.choice, Quot.sound
* `Emissary.SamParser.C165_keys_partial`: propext, Classical.choice, Quot.sound
* `Emissary.SamParser.C165_short_keys`: propext, Classical.choice, Quot.sound
* `Emissary.SamParser.C165_refused`: propext, Classical.choice, Quot.sound
* `Emissary.SamParser.C165_accept`: propext, Classical.choice, Quot.sound
* `Emissary.SamParser.C165_connect`: propext, Classical.choice, Quot.sound
* `Emissary.SamParser.C165_lookup`: propext, Classical.choice, Quot.sound
* `Emissary.SamParser.C165_generate`: propext, Classical.choice, Quot.sound
* `Emissary.SamParser.C166_b32`: propext, Classical.choice, Quot.sound
* `Emissary.SamParser.C166_ending_violated`: propext, Classical.choice, Quot.sound
* `Emissary.SamParser.C166_length_violated`: propext, Classical.choice, Quot.sound
* `Emissary.SamParser.C166_name`: propext, Classical.choice, Quot.sound
* `Emissary.SamParser.C166_dest`: propext, Classical.choice, Quot.sound
* `Emissary.SamParser.C166_no_panic`: propext, Classical.choice, Quot.sound
* `Emissary.SamParser.C167_read_partial`: propext, Classical.choice, Quot.sound
* `Emissary.SamParser.C167_panic_violated`: propext, Classical.choice, Quot.sound
* `Emissary.SamServer.C168_distinct`: propext, Classical.choice, Quot.sound
* `Emissary.SamServer.C168_name`: propext, Classical.choice, Quot.sound
* `Emissary.SamServer.C168_destination`: propext, Classical.choice, Quot.sound
* `Emissary.SamServer.C169_ended_partial`: propext, Classical.choice, Quot.sound
* `Emissary.SamServer.C169_new`: propext, Classical.choice, Quot.sound
* `Emissary.SamServer.C169_failed_violated`: propext, Classical.choice, Quot.sound
* `Emissary.SamServer.C170_passed_partial`: propext, Classical.choice, Quot.sound
* `Emissary.SamServer.C170_unanswered_violated`: propext, Classical.choice, Quot.sound
* `Emissary.SamServer.C170_datagrams`: propext, Classical.choice, Quot.sound
* `Emissary.SamServer.C170_names`: propext, Classical.choice, Quot.sound
* `Emissary.SamServer.C170_bookless_violated`: propext, Classical.choice, Quot.sound
* `Emissary.SamServer.C170_unterminated_violated`: propext, Classical.choice, Quot.sound
* `Emissary.SamServer.C170_refused_violated`: propext, Classical.choice, Quot.sound
* `Emissary.SamServer.C171_short_violated`: propext, Classical.choice, Quot.sound
* `Emissary.SamServer.C171_crash_violated`: propext, Classical.choice, Quot.sound
* `Emissary.SamServer.C171_running_partial`: propext, Classical.choice, Quot.sound
* `Emissary.SamServer.C172_ready`: propext, Classical.choice, Quot.sound
* `Emissary.SamServer.C172_soon`: propext, Classical.choice, Quot.sound
* `Emissary.SamServer.C172_fails`: propext
* `Emissary.SamServer.C173_order`: propext, Classical.choice, Quot.sound
* `Emissary.SamServer.C173_lost_violated`: propext, Classical.choice, Quot.sound
* `Emissary.SamSession.C174_once`: propext, Classical.choice, Quot.sound
* `Emissary.SamSession.C174_texts`: propext, Classical.choice, Quot.sound
* `Emissary.SamSession.C174_now`: propext, Classical.choice, Quot.sound
* `Emissary.SamSession.C174_answered_partial`: propext, Classical.choice, Quot.sound
* `Emissary.SamSession.C174_book`: propext, Classical.choice, Quot.sound
* `Emissary.SamSession.C174_twice_violated`: propext, Classical.choice, Quot.sound
* `Emissary.SamSession.C175_order`: propext, Classical.choice, Quot.sound
* `Emissary.SamSession.C175_sent`: propext, Classical.choice, Quot.sound
* `Emissary.SamSession.C175_kinds`: propext, Classical.choice, Quot.sound
* `Emissary.SamSession.C176_once`: propext, Classical.choice, Quot.sound
* `Emissary.SamSession.C176_opened_partial`: propext, Classical.choice, Quot.sound
* `Emissary.SamSession.C176_unterminated_violated`: propext, Classical.choice, Quot.sound
* `Emissary.SamSession.C176_dropped_violated`: propext, Classical.choice, Quot.sound
* `Emissary.SamSession.C176_kind_violated`: propext, Classical.choice, Quot.sound
* `Emissary.SamSession.C176_kept_partial`: propext, Classical.choice, Quot.sound
* `Emissary.SamSession.C176_self`: propext, Classical.choice, Quot.sound
* `Emissary.Datagram.C177_delivered_partial`: propext, Classical.choice, Quot.sound
* `Emissary.Datagram.C177_exact`: propext, Classical.choice, Quot.sound
* `Emissary.Datagram.C177_forged_violated`: propext, Classical.choice, Quot.sound
* `Emissary.Datagram.C177_ports_violated`: propext, Classical.choice, Quot.sound
* `Emissary.Datagram.C177_port_violated`: propext, Classical.choice, Quot.sound
* `Emissary.Datagram.C177_lost_violated`: propext, Classical.choice, Quot.sound
* `Emissary.Datagram.C177_dsa_violated`: propext, Classical.choice, Quot.sound
* `Emissary.Datagram.C178_roundtrip`: propext, Quot.sound
* `Emissary.Datagram.C178_built`: none
* `Emissary.Datagram.C178_refused`: propext, Quot.sound
* `Emissary.I2cpSocket.C179_order`: propext, Classical.choice, Quot.sound
* `Emissary.I2cpSocket.C179_all_partial`: propext, Classical.choice, Quot.sound
* `Emissary.I2cpSocket.C179_progress`: propext, Quot.sound
* `Emissary.I2cpSocket.C179_open_partial`: propext, Classical.choice, Quot.sound
* `Emissary.I2cpSocket.C179_seen_partial`: propext, Classical.choice, Quot.sound
* `Emissary.I2cpSocket.C179_size_violated`: propext, Classical.choice, Quot.sound
* `Emissary.I2cpSocket.C180_order`: propext, Quot.sound
* `Emissary.I2cpSocket.C180_kept`: propext, Quot.sound
* `Emissary.I2cpSocket.C180_flushed`: propext, Quot.sound
* `Emissary.I2cpMessage.C181_set_date`: propext, Classical.choice, Quot.sound
* `Emissary.I2cpMessage.C181_bandwidth`: propext, Classical.choice, Quot.sound
* `Emissary.I2cpMessage.C181_payload`: propext, Classical.choice, Quot.sound
* `Emissary.I2cpMessage.C181_status`: propext, Classical.choice, Quot.sound
* `Emissary.I2cpMessage.C181_all_partial`: propext, Classical.choice, Quot.sound
* `Emissary.I2cpMessage.C181_host_reply_violated`: propext, Classical.choice, Quot.sound
* `Emissary.I2cpMessage.C181_deaf_violated`: propext, Classical.choice, Quot.sound
* `Emissary.I2cpMessage.C181_lease_request_violated`: propext, Classical.choice, Quot.sound
* `Emissary.I2cpMessage.C181_no_lease_violated`: none
* `Emissary.I2cpMessage.C182_get_date`: propext, Classical.choice, Quot.sound
* `Emissary.I2cpMessage.C182_set_date`: propext, Classical.choice, Quot.sound
* `Emissary.I2cpMessage.C182_lookup_hash`: propext, Classical.choice, Quot.sound
* `Emissary.I2cpMessage.C182_lookup_name`: propext, Classical.choice, Quot.sound
* `Emissary.I2cpMessage.C182_message`: propext, Classical.choice, Quot.sound
* `Emissary.I2cpMessage.C182_signed`: propext, Classical.choice, Quot.sound
* `Emissary.I2cpMessage.C182_lease_set`: propext, Classical.choice, Quot.sound
* `Emissary.I2cpMessage.C182_lease_set_signed`: propext, Classical.choice, Quot.sound
* `Emissary.I2cpMessage.C182_keys_violated`: propext, Classical.choice, Quot.sound
* `Emissary.I2cpMessage.C182_trailing_violated`: propext, Classical.choice, Quot.sound
* `Emissary.I2cpMessage.C182_total_partial`: propext
* `Emissary.I2cpSession.C183_order`: propext, Classical.choice, Quot.sound
* `Emissary.I2cpSession.C183_now`: propext, Classical.choice, Quot.sound
* `Emissary.I2cpSession.C183_later_partial`: propext, Classical.choice, Quot.sound
* `Emissary.I2cpSession.C183_lost_violated`: propext
* `Emissary.I2cpSession.C183_lookup_violated`: propext, Classical.choice, Quot.sound
* `Emissary.I2cpSession.C183_silent_violated`: propext, Quot.sound
* `Emissary.I2cpSession.C184_once`: propext, Classical.choice, Quot.sound
* `Emissary.I2cpSession.C184_now`: propext
* `Emissary.I2cpSession.C184_later_partial`: propext, Classical.choice, Quot.sound
* `Emissary.I2cpSession.C184_book`: propext
* `Emissary.I2cpSession.C184_forgotten_violated`: propext
* `Emissary.I2cpSession.C184_no_book_violated`: propext
* `Emissary.I2cpSession.C185_delivered`: propext, Classical.choice, Quot.sound
* `Emissary.I2cpSession.C186_answers`: propext
* `Emissary.I2cpSession.C186_published`: propext
* `Emissary.I2cpSession.C186_key_violated`: propext, Classical.choice, Quot.sound
* `Emissary.I2cpSession.C186_destroy_violated`: propext
* `Emissary.I2cpSession.C186_closed`: propext
* `Emissary.I2cpSession.C186_default_violated`: propext, Classical.choice, Quot.sound
* `Emissary.I2cpSession.C186_no_key_violated`: propext, Classical.choice, Quot.sound
* `Emissary.I2cpServer.C187_request`: propext, Classical.choice, Quot.sound
* `Emissary.I2cpServer.C187_once`: propext, Classical.choice, Quot.sound
* `Emissary.I2cpServer.C187_started`: propext, Classical.choice, Quot.sound
* `Emissary.I2cpServer.C187_soon_partial`: propext, Classical.choice, Quot.sound
* `Emissary.I2cpServer.C187_more_violated`: propext, Classical.choice, Quot.sound
* `Emissary.I2cpServer.C187_none_violated`: propext, Classical.choice, Quot.sound
* `Emissary.I2cpServer.C187_lookup_violated`: propext, Classical.choice, Quot.sound
* `Emissary.I2cpServer.C187_destroy_violated`: propext, Classical.choice, Quot.sound
* `Emissary.I2cpServer.C187_other_violated`: propext, Classical.choice, Quot.sound
* `Emissary.I2cpServer.C188_ids_partial`: propext, Classical.choice, Quot.sound
* `Emissary.I2cpServer.C188_repeat_violated`: propext, Classical.choice, Quot.sound
* `Emissary.I2cpServer.C188_none_violated`: propext, Classical.choice, Quot.sound
* `Emissary.I2cpServer.C188_isolated_partial`: propext, Classical.choice, Quot.sound
* `Emissary.I2cpServer.C188_active`: propext, Classical.choice, Quot.sound
* `Emissary.I2cpServer.C188_early_violated`: propext, Classical.choice, Quot.sound
* `Emissary.I2cpServer.C188_keys_violated`: propext, Classical.choice, Quot.sound
* `Emissary.I2cpServer.C188_dead_violated`: propext, Classical.choice, Quot.sound
* `Emissary.I2cpServer.C188_running_partial`: propext, Classical.choice, Quot.sound
* `Emissary.Util.C189_rearranged`: propext, Classical.choice, Quot.sound
* `Emissary.Util.C189_every`: propext, Classical.choice, Quot.sound
* `Emissary.Util.C190_blocks`: propext, Classical.choice, Quot.sound
* `Emissary.Util.C190_multicast_violated`: propext, Classical.choice, Quot.sound
* `Emissary.Util.C190_this_network_violated`: propext, Classical.choice, Quot.sound
* `Emissary.Util.C191_read`: propext, Quot.sound
* `Emissary.Util.C191_given_up_violated`: propext, Quot.sound
* `Emissary.Util.C191_timeout`: propext, Quot.sound
* `Emissary.Util.C191_write`: propext
* `Emissary.Util.C191_write_done`: propext, Quot.sound
* `Emissary.Util.C191_read_done`: propext, Quot.sound
* `Emissary.Bloom.C192_repeat`: propext, Classical.choice, Quot.sound
* `Emissary.Bloom.C192_forgets`: propext, Quot.sound
* `Emissary.Bloom.C192_capacity_violated`: propext, Classical.choice, Quot.sound
* `Emissary.Bloom.C192_new_partial`: propext, Quot.sound
* `Emissary.Shutdown.C193_ready`: propext, Quot.sound
* `Emissary.Shutdown.C193_notice`: propext, Quot.sound
* `Emissary.Shutdown.C193_early_violated`: propext, Quot.sound
* `Emissary.Shutdown.C193_late_violated`: propext, Quot.sound
* `Emissary.Shutdown.C193_again`: propext, Quot.sound
* `Emissary.Events.C194_numbers`: propext, Quot.sound
* `Emissary.Events.C194_each`: propext, Quot.sound
* `Emissary.Events.C194_now`: propext, Quot.sound
* `Emissary.Events.C195_once`: propext, Quot.sound
* `Emissary.Events.C195_all_partial`: propext, Quot.sound
* `Emissary.Events.C195_unread_violated`: propext, Quot.sound
* `Emissary.Events.C195_burst_violated`: propext, Quot.sound
* `Emissary.Events.C196_at_most_once`: propext, Classical.choice, Quot.sound
* `Emissary.Router.C196_end`: propext, Classical.choice, Quot.sound
* `Emissary.Router.C196_polled`: propext, Quot.sound
* `Emissary.Router.C196_shutting_down`: propext, Classical.choice, Quot.sound
* `Emissary.Router.C196_shut_down_violated`: propext, Classical.choice, Quot.sound
* `Emissary.TBuild.C197_done_iff`: propext, Quot.sound
* `Emissary.TBuild.C197_until_then`: propext, Quot.sound
* `Emissary.AddressBook.C198_lookup`: propext, Quot.sound
* `Emissary.AddressBook.C198_line`: propext, Quot.sound
* `Emissary.AddressBook.C199_forgotten_violated`: propext, Quot.sound
* `Emissary.AddressBook.C199_crash_violated`: propext
* `Emissary.AddressBook.C199_torn_violated`: propext, Quot.sound
* `Emissary.AddressBook.C199_kept_partial`: propext, Quot.sound
* `Emissary.HttpProxy.C200_sent`: propext, Classical.choice, Quot.sound
* `Emissary.HttpProxy.C201_same_partial`: propext, Classical.choice, Quot.sound
* `Emissary.HttpProxy.C201_other_violated`: propext, Classical.choice, Quot.sound
* `Emissary.HttpProxy.C201_referer_violated`: propext, Classical.choice, Quot.sound
* `Emissary.HttpProxy.C201_agent_violated`: propext, Classical.choice, Quot.sound
* `Emissary.HttpProxy.C202_served`: propext, Classical.choice, Quot.sound
* `Emissary.HttpProxy.C202_port_violated`: propext, Classical.choice, Quot.sound
* `Emissary.HttpProxy.C203_beginning_partial`: propext, Classical.choice, Quot.sound
* `Emissary.HttpProxy.C203_whole_partial`: propext, Classical.choice, Quot.sound
* `Emissary.HttpProxy.C203_long_violated`: propext, Classical.choice, Quot.sound
* `Emissary.HttpProxy.C203_lost_violated`: propext, Classical.choice, Quot.sound
* `Emissary.HttpProxy.C203_head_violated`: propext, Classical.choice, Quot.sound
* `Emissary.Su3.C204_read`: propext, Classical.choice, Quot.sound
* `Emissary.Su3.C204_only`: propext, Classical.choice, Quot.sound
* `Emissary.Su3.C205_unsigned_violated`: propext, Classical.choice, Quot.sound
* `Emissary.Su3.C205_genuine_violated`: propext, Classical.choice, Quot.sound
* `Emissary.Su3.C205_kind_partial`: propext, Classical.choice, Quot.sound
* `Emissary.Su3.C205_files_partial`: propext, Classical.choice, Quot.sound
* `Emissary.Su3.C206_entry_violated`: propext, Classical.choice, Quot.sound
* `Emissary.Su3.C206_version_violated`: propext, Classical.choice, Quot.sound
* `Emissary.Su3.C206_safe_partial`: propext
* `Emissary.Su3.C207_asked_partial`: propext, Quot.sound
* `Emissary.Su3.C207_stuck_violated`: propext, Quot.sound
* `Emissary.Su3.C207_empty_violated`: none
* `Emissary.Su3.C207_ends_partial`: propext, Quot.sound
* `Emissary.Boot.C208_identity`: propext, Classical.choice, Quot.sound
* `Emissary.Boot.C209_short_violated`: propext, Classical.choice, Quot.sound
* `Emissary.Boot.C209_kept_partial`: propext, Classical.choice, Quot.sound
* `Emissary.Boot.C210_stopped_violated`: propext, Classical.choice, Quot.sound
* `Emissary.Boot.C210_made_partial`: propext, Classical.choice, Quot.sound
* `Emissary.Boot.C210_profiles_partial`: propext, Classical.choice, Quot.sound
* `Emissary.Boot.C210_alphabet_partial`: propext, Classical.choice, Quot.sound
* `Emissary.Boot.C211_kept_partial`: propext, Classical.choice, Quot.sound
* `Emissary.Boot.C211_unreadable_violated`: propext, Classical.choice, Quot.sound
* `Emissary.Boot.C212_torn_violated`: propext, Classical.choice, Quot.sound
* `Emissary.Boot.C212_before_partial`: propext, Classical.choice, Quot.sound
* `Emissary.Boot.C213_first_violated`: propext, Classical.choice, Quot.sound
* `Emissary.Boot.C213_later_partial`: propext, Classical.choice, Quot.sound
* `Emissary.Config.C214_asked_partial`: propext, Quot.sound
* `Emissary.Config.C214_http_violated`: propext
* `Emissary.Config.C214_kept`: propext, Quot.sound
* `Emissary.Config.C215_distinct`: propext, Quot.sound
* `Emissary.Config.C216_reseed`: propext, Quot.sound
* `Emissary.Storage.C217_name_partial`: propext, Classical.choice, Quot.sound
* `Emissary.Storage.C217_panic_violated`: propext, Classical.choice, Quot.sound
* `Emissary.Storage.C217_other_violated`: propext, Classical.choice, Quot.sound
* `Emissary.Storage.C218_loaded`: propext, Classical.choice, Quot.sound
* `Emissary.Storage.C218_paths`: propext, Classical.choice, Quot.sound
* `Emissary.Storage.C219_info_violated`: propext, Quot.sound
* `Emissary.Storage.C219_profile_violated`: propext, Classical.choice, Quot.sound
* `Emissary.Storage.C219_torn_partial`: propext, Quot.sound
* `Emissary.PortMapper.C220_udp_violated`: propext
* `Emissary.PortMapper.C220_upnp_partial`: propext
* `Emissary.PortMapper.C220_removed_partial`: propext
* `Emissary.PortMapper.C221_gateway_violated`: propext, Classical.choice, Quot.sound
* `Emissary.PortMapper.C221_mapping_violated`: propext, Classical.choice, Quot.sound
* `Emissary.PortMapper.C221_timeout_partial`: propext, Classical.choice, Quot.sound
* `Emissary.Cli.C222_told_partial`: propext, Quot.sound
* `Emissary.PortMapper.C222_natpmp_partial`: propext
* `Emissary.PortMapper.C222_upnp_partial`: propext
* `Emissary.PortMapper.C222_error_violated`: propext, Classical.choice, Quot.sound
* `Emissary.PortMapper.C223_natpmp_partial`: propext, Quot.sound
* `Emissary.PortMapper.C223_upnp_violated`: propext, Quot.sound
* `Emissary.Tunnels.C224_same_partial`: propext
* `Emissary.Tunnels.C224_torn_violated`: propext
* `Emissary.Tunnels.C224_unwritable_violated`: propext
* `Emissary.Tunnels.C225_joined_partial`: propext, Quot.sound
* `Emissary.Tunnels.C225_second_violated`: propext, Quot.sound
* `Emissary.Tunnels.C225_waits_partial`: propext, Quot.sound
* `Emissary.SamHello.C226_version_partial`: propext, Quot.sound
* `Emissary.SamHello.C226_minimum_violated`: propext, Quot.sound
* `Emissary.SamHello.C227_kept_partial`: propext, Quot.sound
* `Emissary.SamHello.C227_new_partial`: propext, Quot.sound
* `Emissary.SamHello.C227_greeted_partial`: propext, Quot.sound
* `Emissary.SamHello.C227_busy_violated`: propext, Quot.sound
* `Emissary.SamHello.C228_usable`: propext, Classical.choice, Quot.sound
* `Emissary.Net.C229_address_partial`: propext, Quot.sound
* `Emissary.Net.C229_dialled_partial`: propext, Classical.choice, Quot.sound
* `Emissary.Net.C229_ssu2_violated`: propext, Quot.sound
* `Emissary.Net.C229_crash_violated`: propext, Quot.sound
* `Emissary.Net.C229_safe_partial`: none
* `Emissary.Net.C230_dial_partial`: propext, Classical.choice, Quot.sound
* `Emissary.Net.C230_accept_partial`: propext, Classical.choice, Quot.sound
* `Emissary.Net.C230_ssu2_violated`: propext, Quot.sound
* `Emissary.Net.C230_ipv6_violated`: propext, Classical.choice, Quot.sound
* `Emissary.Net.C231_published_partial`: propext, Classical.choice, Quot.sound
* `Emissary.Net.C231_cost`: propext, Quot.sound
* `Emissary.Net.C231_hidden`: propext, Quot.sound
* `Emissary.Net.C231_port_violated`: propext, Classical.choice, Quot.sound
* `Emissary.Net.C232_accept_violated`: propext
* `Emissary.Net.C232_send_violated`: none
* `Emissary.Net.C232_sent_partial`: propext
* `Emissary.Net.C232_keeps_partial`: propext, Quot.sound
* `Emissary.Net.C233_once`: propext, Quot.sound
* `Emissary.Net.C233_all`: propext, Quot.sound
* `Emissary.Net.C234_second_violated`: propext
* `Emissary.Net.C234_refused_violated`: propext
* `Emissary.Net.C234_rest_partial`: propext, Quot.sound
* `Emissary.Hop.C235_delivered_partial`: propext, Classical.choice, Quot.sound
* `Emissary.Hop.C236_inbound_partial`: propext, Classical.choice, Quot.sound
* `Emissary.Hop.C236_gateway_partial`: propext, Classical.choice, Quot.sound
* `Emissary.Hop.C237_goes_on_partial`: propext, Quot.sound
* `Emissary.Hop.C237_readable_partial`: propext, Classical.choice, Quot.sound
* `Emissary.Hop.C237_debug_violated`: propext, Quot.sound
* `Emissary.Hop.C238_participant`: propext, Classical.choice, Quot.sound
* `Emissary.Hop.C238_gateway`: propext, Classical.choice, Quot.sound
* `Emissary.Hop.C238_endpoint`: propext, Classical.choice, Quot.sound
* `Emissary.Hop.C239_accounted_partial`: propext, Quot.sound
* `Emissary.Hop.C239_lost_violated`: propext, Quot.sound
* `Emissary.Hop.C240_first_partial`: propext, Quot.sound
* `Emissary.Hop.C240_once_partial`: propext, Quot.sound
* `Emissary.Hop.C240_junk_violated`: propext, Quot.sound
* `Emissary.Dsa.C241_dsa`: propext, Classical.choice, Quot.sound
* `Emissary.Dsa.C241_range`: propext, Classical.choice, Quot.sound
* `Emissary.Dsa.C242_key_bytes`: propext, Classical.choice, Quot.sound
* `Emissary.Dsa.C242_length_partial`: propext, Quot.sound
* `Emissary.Dsa.C242_extra_violated`: propext, Quot.sound
* `Emissary.Dsa.C243_nonces`: propext, Classical.choice, Quot.sound
* `Emissary.Dsa.C243_damaged`: propext, Classical.choice, Quot.sound
* `Emissary.Dsa.C243_in_order`: propext, Quot.sound
* `Emissary.Stream.C244_everything_arrives`: propext, Classical.choice, Quot.sound
* `Emissary.Stream.C244_done`: propext, Classical.choice, Quot.sound
* `Emissary.HttpProxy.C245_answered_partial`: propext, Classical.choice, Quot.sound
* `Emissary.HttpProxy.C245_silent_violated`: propext, Classical.choice, Quot.sound
* `Emissary.HttpProxy.C245_broken_violated`: propext, Classical.choice, Quot.sound
* `Emissary.HttpProxy.C246_text_partial`: propext, Classical.choice, Quot.sound
* `Emissary.HttpProxy.C246_markup_violated`: propext, Classical.choice, Quot.sound
* `Emissary.Runtime.C247_peer_partial`: propext, Quot.sound
* `Emissary.Runtime.C247_listener_partial`: propext, Classical.choice, Quot.sound
* `Emissary.Runtime.C247_async_violated`: propext, Quot.sound
* `Emissary.Runtime.C247_refused_violated`: propext, Classical.choice, Quot.sound
* `Emissary.Runtime.C247_private_violated`: propext, Classical.choice, Quot.sound
* `Emissary.Runtime.C248_tokio_partial`: propext, Quot.sound
* `Emissary.Runtime.C248_order_partial`: propext, Quot.sound
* `Emissary.Runtime.C248_room_partial`: propext, Quot.sound
* `Emissary.Runtime.C248_full_violated`: propext, Quot.sound
* `Emissary.Runtime.C248_dead_violated`: propext, Quot.sound
* `Emissary.Runtime.C248_long_violated`: propext
* `Emissary.Runtime.C249_results_partial`: propext, Quot.sound
* `Emissary.Runtime.C249_open_partial`: propext, Classical.choice, Quot.sound
* `Emissary.Runtime.C249_woken_partial`: propext, Quot.sound
* `Emissary.Runtime.C249_ended_violated`: propext, Quot.sound
* `Emissary.Journey.C250_crosses_partial`: propext, Classical.choice, Quot.sound
* `Emissary.Journey.C251_first_partial`: propext, Classical.choice, Quot.sound
* `Emissary.Journey.C251_session_partial`: propext, Classical.choice, Quot.sound
* `Emissary.Journey.C251_ratchets_partial`: propext, Classical.choice, Quot.sound
* `Emissary.Journey.C252_first_partial`: propext, Classical.choice, Quot.sound
* `Emissary.Journey.C252_session_partial`: propext, Classical.choice, Quot.sound
* `Emissary.Journey.C252_ratchets_partial`: propext, Classical.choice, Quot.sound
* `Emissary.Ssu2.Socket.C253_in_order`: propext, Classical.choice, Quot.sound
* `Emissary.Ssu2.Socket.C253_none_lost_partial`: propext, Classical.choice, Quot.sound
* `Emissary.Ssu2.Socket.C253_delivered_partial`: propext, Classical.choice, Quot.sound
* `Emissary.Ssu2.Socket.C253_full_violated`: propext, Classical.choice, Quot.sound
* `Emissary.Ssu2.Socket.C254_end_panics_violated`: propext, Quot.sound
* `Emissary.Ssu2.Socket.C254_peer_ends_router_violated`: propext, Classical.choice, Quot.sound
* `Emissary.Ssu2.Socket.C254_manager_never_told_violated`: propext, Quot.sound
* `Emissary.Ssu2.Socket.C254_only_ends_panic_partial`: propext, Quot.sound
* `Emissary.Ssu2.Socket.C255_ids_kept_violated`: propext, Quot.sound
* `Emissary.Ssu2.Socket.C255_token_requests_violated`: propext, Quot.sound
* `Emissary.Ssu2.Socket.C255_id_dead_violated`: propext, Classical.choice, Quot.sound
* `Emissary.Ssu2.Socket.C255_one_entry_each_partial`: propext, Quot.sound
* `Emissary.Ssu2.Socket.C256_manager`: propext, Quot.sound
* `Emissary.Ssu2.Socket.C256_told`: propext, Classical.choice, Quot.sound
* `Emissary.Ssu2.Socket.C256_reported_down`: propext, Classical.choice, Quot.sound
* `Emissary.Ssu2.Socket.C257_never_times_out_violated`: propext, Classical.choice, Quot.sound
* `Emissary.Ntcp2.Link.C258_in_order`: propext, Classical.choice, Quot.sound
* `Emissary.Ntcp2.Link.C259_delivered`: propext, Classical.choice, Quot.sound
* `Emissary.Meet.C260_agree`: propext, Classical.choice, Quot.sound
* `Emissary.Meet.C261_one_asks_partial`: propext, Classical.choice, Quot.sound
* `Emissary.Meet.C261_both_ask_violated`: propext, Quot.sound
* `Emissary.Ntcp2.Transport.C262_woken_partial`: propext, Quot.sound
* `Emissary.Ntcp2.Transport.C262_failed_handshake_violated`: propext, Quot.sound
* `Emissary.Ntcp2.Transport.C262_backlog_violated`: propext, Quot.sound
* `Emissary.Ntcp2.Transport.C262_backlog_partial`: propext, Quot.sound
* `Emissary.Ntcp2.Transport.C263_account`: propext, Classical.choice, Quot.sound
* `Emissary.NetdbRun.C264_table_partial`: propext, Classical.choice, Quot.sound
* `Emissary.NetdbRun.C264_asked_partial`: propext, Classical.choice, Quot.sound
* `Emissary.NetdbRun.C264_used_partial`: propext, Classical.choice, Quot.sound
* `Emissary.NetdbRun.C264_named_violated`: propext, Quot.sound
* `Emissary.Ecies.C265_watched`: propext, Classical.choice, Quot.sound
* `Emissary.Cli.C266_unasked_partial`: propext, Classical.choice, Quot.sound
* `Emissary.Cli.C266_twice_partial`: propext, Classical.choice, Quot.sound
* `Emissary.Cli.C266_gateway_violated`: propext, Quot.sound
* `Emissary.Cli.C266_graceful_partial`: propext, Classical.choice, Quot.sound
* `Emissary.Cli.C266_unasked_goes_on_partial`: propext, Classical.choice, Quot.sound
* `Emissary.Cli.C266_buttons_partial`: propext, Quot.sound
* `Emissary.Cli.C267_true`: propext, Classical.choice, Quot.sound
* `Emissary.Cli.C267_fresh`: propext, Classical.choice, Quot.sound
* `Emissary.Cli.C267_all_partial`: propext, Classical.choice, Quot.sound
* `Emissary.Cli.C267_status`: propext, Quot.sound
* `Emissary.Cli.C267_since`: propext, Quot.sound
* `Emissary.Cli.C267_countdown`: propext, Classical.choice, Quot.sound
* `Emissary.Cli.C267_uptime`: propext, Classical.choice, Quot.sound
* `Emissary.Cli.C267_unit`: propext, Quot.sound
* `Emissary.Cli.C267_rate_violated`: propext, Quot.sound
* `Emissary.Cli.C267_rate_ends_partial`: propext, Quot.sound
* `Emissary.Start.C268_groups_partial`: propext, Classical.choice, Quot.sound
* `Emissary.Start.C268_trailing_violated`: propext, Classical.choice, Quot.sound
* `Emissary.Start.C268_unknown_violated`: propext, Classical.choice, Quot.sound
* `Emissary.Start.C268_presets`: propext, Classical.choice, Quot.sound
* `Emissary.Start.C269_routers`: propext, Quot.sound
* `Emissary.Start.C269_sam_partial`: propext, Quot.sound
* `Emissary.Start.C269_no_sam_violated`: Quot.sound
* `Emissary.Start.C269_address_book_violated`: propext, Quot.sound
* `Emissary.Start.C269_alone_violated`: propext, Quot.sound
* `Emissary.PoolSend.C270_first_hop`: propext, Classical.choice, Quot.sound
* `Emissary.PoolSend.C270_order`: propext, Classical.choice, Quot.sound
* `Emissary.PoolSend.C270_sent_partial`: propext, Classical.choice, Quot.sound
* `Emissary.PoolSend.C270_delivered_partial`: propext, Classical.choice, Quot.sound
* `Emissary.PoolSend.C270_no_tunnel_violated`: propext, Classical.choice, Quot.sound
* `Emissary.PoolSend.C270_bound_violated`: propext, Quot.sound
* `Emissary.PoolSend.C270_expired_violated`: propext, Quot.sound
* `Emissary.Ecies.C271_ratchets_partial`: propext, Classical.choice, Quot.sound
* `Emissary.Ecies.C271_strangers_partial`: propext, Classical.choice, Quot.sound
* `Emissary.Ecies.C271_unanswered_violated`: propext, Classical.choice, Quot.sound
* `Emissary.Ntcp2.C272_accepts_partial`: propext, Classical.choice, Quot.sound
* `Emissary.Ntcp2.C272_dials_partial`: propext, Classical.choice, Quot.sound
* `Emissary.Ntcp2.C272_unpadded_request_violated`: propext, Classical.choice, Quot.sound
* `Emissary.Ntcp2.C272_unpadded_answer_violated`: propext, Classical.choice, Quot.sound
* `Emissary.Kdf.C273_tag_sets`: propext
* `Emissary.Kdf.C273_entries`: propext, Quot.sound
* `Emissary.Kdf.C273_new_session`: propext
* `Emissary.Kdf.C273_reply`: propext, Quot.sound
* `Emissary.Kdf.C273_tunnels`: propext
* `Emissary.Kdf.C273_ssu2`: propext
* `Emissary.Kdf.C273_messages`: propext, Classical.choice, Quot.sound
* `Emissary.Wire.C274_i2np`: propext, Classical.choice, Quot.sound
* `Emissary.Wire.C274_answers`: propext, Classical.choice, Quot.sound
* `Emissary.Wire.C274_lookups_partial`: propext, Classical.choice, Quot.sound
* `Emissary.Wire.C274_encrypted_lookups_violated`: propext, Classical.choice, Quot.sound
* `Emissary.Wire.C274_stores_partial`: propext, Classical.choice, Quot.sound
* `Emissary.Wire.C274_build_records`: propext, Classical.choice, Quot.sound
* `Emissary.Wire.C274_fragments`: propext, Classical.choice, Quot.sound
* `Emissary.Wire.C274_tunnel_messages`: propext, Classical.choice, Quot.sound
* `Emissary.Wire.C274_garlic`: propext, Classical.choice, Quot.sound
* `Emissary.Wire.C274_streaming`: propext, Classical.choice, Quot.sound
* `Emissary.Wire.C274_payloads`: propext, Quot.sound
* `Emissary.Wire.C275_lease_set_made`: propext, Quot.sound
* `Emissary.Wire.C275_lease_set_read_partial`: propext, Classical.choice, Quot.sound
* `Emissary.Wire.C275_router_info_read_partial`: propext, Classical.choice, Quot.sound
* `Emissary.Wire.C275_router_info_made`: propext, Quot.sound
* `Emissary.Wire.C275_other_transports_violated`: propext, Classical.choice, Quot.sound
* `Emissary.Wire.C275_other_keys_violated`: propext, Classical.choice, Quot.sound
* `Emissary.Wire.C275_first_lease`: propext, Classical.choice, Quot.sound
* `Emissary.Wire.C275_offline_read_partial`: propext, Classical.choice, Quot.sound
* `Emissary.Wire.C275_offline_length_violated`: propext, Classical.choice, Quot.sound
* `Emissary.Ssu2.C276_answer_blocks`: propext
* `Emissary.Ssu2.C276_dialling`: propext, Classical.choice, Quot.sound
* `Emissary.Ssu2.C276_being_dialled_partial`: propext, Classical.choice, Quot.sound
* `Emissary.Ssu2.C276_unknown_blocks_violated`: propext, Classical.choice, Quot.sound
* `Emissary.Ssu2.C276_compressed_info_violated`: propext, Classical.choice, Quot.sound
* `Emissary.TBuild.C277_creator`: propext, Classical.choice, Quot.sound
* `Emissary.TBuild.C277_hop`: propext, Classical.choice, Quot.sound
* `Emissary.NetdbWire.C278_direct_lookup`: propext, Classical.choice, Quot.sound
* `Emissary.NetdbWire.C278_published_partial`: propext, Classical.choice, Quot.sound
* `Emissary.NetdbWire.C278_token_violated`: propext, Classical.choice, Quot.sound
* `Emissary.NetdbWire.C278_lease_set_lookup`: propext, Classical.choice, Quot.sound
* `Emissary.NetdbWire.C278_router_lookup`: propext, Classical.choice, Quot.sound
* `Emissary.NetdbWire.C278_sent_partial`: propext, Classical.choice, Quot.sound
* `Emissary.NetdbWire.C278_status`: propext, Classical.choice, Quot.sound
* `Emissary.NetdbWire.C279_current`: propext, Classical.choice, Quot.sound
* `Emissary.NetdbWire.C279_found_partial`: propext, Classical.choice, Quot.sound
* `Emissary.GarlicPeer.C280_remembered`: propext, Classical.choice, Quot.sound
* `Emissary.GarlicPeer.C280_request_violated`: propext, Classical.choice, Quot.sound
* `Emissary.GarlicPeer.C280_called_partial`: propext, Classical.choice, Quot.sound
* `Emissary.GarlicPeer.C280_calls_partial`: propext, Classical.choice, Quot.sound
* `Emissary.TunnelPeer.C281_outbound_owner`: propext, Classical.choice, Quot.sound
* `Emissary.TunnelPeer.C281_inbound_owner`: propext, Classical.choice, Quot.sound
* `Emissary.TunnelPeer.C281_endpoint`: propext, Classical.choice, Quot.sound
* `Emissary.TunnelPeer.C281_gateway`: propext, Classical.choice, Quot.sound
* `Emissary.TunnelPeer.C281_participant`: propext, Classical.choice, Quot.sound
* `Emissary.TunnelPeer.C281_put_together`: propext, Classical.choice, Quot.sound
* `Emissary.StreamTask.C282_read`: propext
* `Emissary.StreamTask.C282_kept_partial`: propext, Classical.choice, Quot.sound
* `Emissary.StreamTask.C282_sent_again`: propext, Quot.sound
* `Emissary.StreamTask.C282_peer_closes_violated`: propext, Quot.sound
* `Emissary.StreamTask.C283_client_done_violated`: propext, Quot.sound
* `Emissary.StreamTask.C283_peer_done_violated`: propext, Quot.sound
* `Emissary.StreamTask.C283_delivered_partial`: propext, Classical.choice, Quot.sound
* `Emissary.StreamTask.C283_acknowledges`: propext, Classical.choice, Quot.sound
* `Emissary.StreamTask.C283_complete`: propext, Classical.choice, Quot.sound
* `Emissary.StreamTask.C284_vanished_violated`: propext, Quot.sound
* `Emissary.StreamTask.C284_ends_partial`: propext, Quot.sound
* `Emissary.StreamTask.C285_given_first`: propext, Classical.choice, Quot.sound
* `Emissary.StreamTask.C285_told_apart_partial`: propext, Classical.choice, Quot.sound
* `Emissary.StreamTask.C285_destination_connects`: propext, Classical.choice, Quot.sound
* `Emissary.StreamTask.C285_hash_instead_violated`: propext, Classical.choice, Quot.sound
* `Emissary.StreamPeer.C286_peer_opens_partial`: propext, Classical.choice, Quot.sound
* `Emissary.StreamPeer.C286_peer_answers`: propext, Classical.choice, Quot.sound
* `Emissary.StreamPeer.C286_own_packets`: propext, Classical.choice, Quot.sound
* `Emissary.StreamPeer.C286_older_peers_violated`: propext, Classical.choice, Quot.sound
* `Emissary.StreamPeer.C287_reset_violated`: propext, Classical.choice, Quot.sound
* `Emissary.StreamPeer.C287_close_violated`: propext, Classical.choice, Quot.sound
* `Emissary.StreamPeer.C287_number_partial`: propext, Classical.choice, Quot.sound
* `Emissary.StreamPeer.C288_ignored_violated`: propext
* `Emissary.StreamPeer.C288_too_large_violated`: propext, Quot.sound
* `Emissary.StreamPeer.C288_sizes_partial`: propext, Classical.choice, Quot.sound
* `Emissary.TunnelTest.C289_interval`: propext, Quot.sound
* `Emissary.TunnelTest.C289_content`: propext, Classical.choice, Quot.sound
* `Emissary.TunnelTest.C289_succeeds_partial`: propext, Classical.choice, Quot.sound
* `Emissary.TunnelTest.C289_forged_violated`: propext, Quot.sound
* `Emissary.TunnelTest.C289_still_used_violated`: propext, Quot.sound
* `Emissary.Datagram.C290_received_partial`: propext, Classical.choice, Quot.sound
* `Emissary.Datagram.C290_raw_received`: propext, Classical.choice, Quot.sound
* `Emissary.Datagram.C290_types_violated`: propext, Classical.choice, Quot.sound
* `Emissary.Datagram.C290_newer_violated`: propext, Classical.choice, Quot.sound
* `Emissary.Datagram.C290_sent`: propext, Quot.sound
* `Emissary.Journey.C291_ratchets_partial`: propext, Classical.choice, Quot.sound
* `Emissary.Journey.C291_opens_partial`: propext, Classical.choice, Quot.sound
* `Emissary.Journey.C291_packets_partial`: propext, Classical.choice, Quot.sound
* `Emissary.StreamTask.C292_reads_partial`: propext, Classical.choice, Quot.sound
* `Emissary.StreamTask.C292_close_violated`: propext, Classical.choice, Quot.sound
* `Emissary.SamPending.C293_ready`: propext, Quot.sound
* `Emissary.SamPending.C293_given_up`: propext, Quot.sound
* `Emissary.SamPending.C293_established`: propext, Classical.choice, Quot.sound
* `Emissary.SamPending.C293_unanswered_violated`: propext
* `Emissary.SamPending.C293_manager_ends_violated`: propext, Quot.sound
* `Emissary.StreamPorts.C294_outbound`: propext, Quot.sound
* `Emissary.StreamPorts.C294_inbound_partial`: propext, Quot.sound
* `Emissary.StreamPorts.C294_inbound_violated`: propext, Quot.sound
* `Emissary.StreamPorts.C294_waiting_violated`: propext, Quot.sound
* `Emissary.StreamPorts.C294_waiting_partial`: propext, Quot.sound
* `Emissary.StreamPorts.C294_written`: propext, Classical.choice, Quot.sound
* `Emissary.StreamPorts.C294_not_a_number`: propext
* `Emissary.I2cpSession.C295_at_once_partial`: propext, Quot.sound
* `Emissary.I2cpSession.C295_expired_violated`: propext
* `Emissary.I2cpSession.C295_waits_violated`: propext, Quot.sound
* `Emissary.PoolConfig.C296_asked`: propext, Classical.choice, Quot.sound
* `Emissary.PoolConfig.C296_length`: propext, Classical.choice, Quot.sound
* `Emissary.PoolConfig.C296_none_violated`: propext, Classical.choice, Quot.sound
* `Emissary.PoolConfig.C296_sam_violated`: propext, Classical.choice, Quot.sound
* `Emissary.PoolConfig.C296_sam_partial`: propext, Classical.choice, Quot.sound
* `Emissary.PoolWaits.C297_kept_partial`: propext, Quot.sound
* `Emissary.PoolWaits.C297_answered`: propext, Quot.sound
* `Emissary.PoolWaits.C297_tests_violated`: propext, Classical.choice, Quot.sound
* `Emissary.PoolWaits.C297_dials_violated`: propext, Classical.choice, Quot.sound
* `Emissary.PoolWaits.C297_inbound_partial`: propext, Quot.sound
* `Emissary.PoolWaits.C297_inbound_violated`: propext, Quot.sound
* `Emissary.SamHello.C298_answers`: propext, Classical.choice, Quot.sound
* `Emissary.SamHello.C298_lookup_violated`: propext, Classical.choice, Quot.sound
* `Emissary.Ssu2.C299_sent`: propext, Classical.choice, Quot.sound
* `Emissary.Ssu2.C299_received`: propext, Classical.choice, Quot.sound
* `Emissary.Ssu2.C299_tunnels`: propext, Classical.choice, Quot.sound
* `Emissary.Ssu2.C299_gateway`: propext, Classical.choice, Quot.sound
* `Emissary.Ssu2.C299_size_violated`: propext, Classical.choice, Quot.sound
* `Emissary.Ssu2.C299_cut_violated`: propext, Classical.choice, Quot.sound
* `Emissary.StreamTask.C300_reason`: propext, Quot.sound
* `Emissary.StreamTask.C300_goes_on_partial`: propext, Classical.choice, Quot.sound
* `Emissary.StreamTask.C300_syn_violated`: propext
* `Emissary.StreamTask.C300_last_number_violated`: propext, Quot.sound
* `Emissary.StreamTask.C301_alone_partial`: propext, Classical.choice, Quot.sound
* `Emissary.StreamTask.C301_ends_partial`: propext, Classical.choice, Quot.sound
* `Emissary.StreamTask.C301_why_partial`: propext, Classical.choice, Quot.sound
* `Emissary.StreamTask.C301_panic_violated`: propext, Classical.choice, Quot.sound
* `Emissary.StreamTask.C301_two_packets_violated`: propext, Classical.choice, Quot.sound
