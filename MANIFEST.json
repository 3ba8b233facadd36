{
 "claims": [
  {
   "property": "C01",
   "status": "proved",
   "theorems": [
    "Verif.C01_tx_assertions_never_fire"
   ],
   "note": ""
  },
  {
   "property": "C02",
   "status": "proved",
   "theorems": [
    "Verif.C02_accepted_is_begun_then_queued",
    "Verif.C02_begun_is_ended_then_current"
   ],
   "note": ""
  },
  {
   "property": "C03",
   "status": "proved",
   "theorems": [
    "Verif.C03_begin_end_alternate"
   ],
   "note": ""
  },
  {
   "property": "C04",
   "status": "proved",
   "theorems": [
    "Verif.C04_busy_period_exact"
   ],
   "note": ""
  },
  {
   "property": "C05",
   "status": "proved",
   "theorems": [
    "Verif.C05_waiting_implies_transmitting",
    "Verif.C05_next_frame_at_once",
    "Verif.C05_quiescent_means_all_sent",
    "Verif.C05_queues_drain"
   ],
   "note": ""
  },
  {
   "property": "C06",
   "status": "proved",
   "theorems": [
    "Verif.C06_send_accepted_iff",
    "Verif.C06_queue_within_capacity"
   ],
   "note": ""
  },
  {
   "property": "C07",
   "status": "partial",
   "theorems": [
    "Verif.C07_overflow_modifies_packet",
    "Verif.C07_link_down_leaves_packet_partial",
    "Verif.C07_overflow_returns_framed_packet"
   ],
   "note": "False of the code on queue overflow (negation proved with a reachable witness); holds when the link is down."
  },
  {
   "property": "C08",
   "status": "proved",
   "theorems": [
    "Verif.C08_no_send_accepted_while_down",
    "Verif.C08_down_link_accepts_nothing",
    "Verif.C08_send_on_down_link",
    "Verif.C08_sendFrom_returns_false"
   ],
   "note": ""
  },
  {
   "property": "C09",
   "status": "partial",
   "theorems": [
    "Verif.C09_queued_frame_gets_wrong_destination",
    "Verif.C09_single_destination_partial",
    "Verif.C09_destination_of_busy_period"
   ],
   "note": "False of the code: a queued frame is handed to the channel with the destination of its predecessor (negation proved with a reachable witness); holds for devices with a single destination. Exact law proved (C09_destination_of_busy_period): every transmission carries the destination of the Send that found the device idle and began the current busy period."
  },
  {
   "property": "C10",
   "status": "proved",
   "theorems": [
    "Verif.C10_framing_round_trip",
    "Verif.C10_fcs_mismatch_is_dropped",
    "Verif.C10_trailer_ignored_without_checksum"
   ],
   "note": ""
  },
  {
   "property": "C11",
   "status": "partial",
   "theorems": [
    "Verif.C11_default_mtu_not_intact",
    "Verif.C11_mtu_intact_partial"
   ],
   "note": "False of the code for the default MTU 1500 (negation proved); holds for packets up to 1492 bytes."
  },
  {
   "property": "C12",
   "status": "proved",
   "theorems": [
    "Verif.C12_decode_all_lengths",
    "Verif.C12_no_truncation"
   ],
   "note": ""
  },
  {
   "property": "C13",
   "status": "proved",
   "theorems": [
    "Verif.C13_frame_layout",
    "Verif.C13_frames_injective",
    "Verif.C13_frames_of_device"
   ],
   "note": ""
  },
  {
   "property": "C14",
   "status": "proved",
   "theorems": [
    "Verif.C14_receive_filter",
    "Verif.C14_bad_fcs_is_dropped",
    "Verif.C14_framed_packet"
   ],
   "note": ""
  },
  {
   "property": "C15",
   "status": "proved",
   "theorems": [
    "Verif.C15_never_same_side",
    "Verif.C15_type_fixed_while_attached"
   ],
   "note": ""
  },
  {
   "property": "C16",
   "status": "proved",
   "theorems": [
    "Verif.C16_leo_reaches_other_index",
    "Verif.C16_leo_reaches_opposite_side",
    "Verif.C16_leo_transmit_never_faults",
    "Verif.C16_unknown_source_fails"
   ],
   "note": ""
  },
  {
   "property": "C17",
   "status": "proved",
   "theorems": [
    "Verif.C17_destination_irrelevant",
    "Verif.C17_same_receivers"
   ],
   "note": ""
  },
  {
   "property": "C18",
   "status": "proved",
   "theorems": [
    "Verif.C18_unicast_first_owner",
    "Verif.C18_unknown_unicast_fails"
   ],
   "note": ""
  },
  {
   "property": "C19",
   "status": "proved",
   "theorems": [
    "Verif.C19_broadcast_reaches_others",
    "Verif.C19_each_other_device_once"
   ],
   "note": ""
  },
  {
   "property": "C20",
   "status": "partial",
   "theorems": [
    "Verif.C20_default_address_captures_broadcast",
    "Verif.C20_capture_law",
    "Verif.C20_broadcast_reaches_all_partial"
   ],
   "note": "False of the code: a device owning the broadcast address captures every broadcast on an ISL channel (negation proved); holds when no attached device has the broadcast address."
  },
  {
   "property": "C21",
   "status": "partial",
   "theorems": [
    "Verif.C21_multicast_not_delivered",
    "Verif.C21_multicast_law",
    "Verif.C21_multicast_on_leo_partial"
   ],
   "note": "False of the code: a multicast destination that no device owns reaches nobody on an ISL channel (negation proved); holds on the ground/space channel."
  },
  {
   "property": "C22",
   "status": "proved",
   "theorems": [
    "Verif.C22_detach_result",
    "Verif.C22_detached_is_isolated"
   ],
   "note": ""
  },
  {
   "property": "C23",
   "status": "partial",
   "theorems": [
    "Verif.C23_detached_isl_device_still_receives",
    "Verif.C23_detach_changes_no_recipients",
    "Verif.C23_detached_isl_sends_nothing_partial"
   ],
   "note": "False of the code: a detached ISL device still receives (negation proved); it can no longer send."
  },
  {
   "property": "C24",
   "status": "partial",
   "theorems": [
    "Verif.C24_leo_detach_out_of_range",
    "Verif.C24_invalid_ids_not_harmless",
    "Verif.C24_invalid_ids_harmless_partial"
   ],
   "note": "False of the code: detaching a slot out of range of the ground/space channel dereferences a null device (negation proved); holds for the other operations and for the ISL channel."
  },
  {
   "property": "C25",
   "status": "partial",
   "theorems": [
    "Verif.C25_received_before_sent_out",
    "Verif.C25_early_by_transmission_time",
    "Verif.C25_last_bit_first_partial"
   ],
   "note": "False of the code for nodes with positions: the transmission time is ignored (negation and exact law proved); holds when one of the nodes has no position."
  },
  {
   "property": "C26",
   "status": "proved",
   "theorems": [
    "Verif.C26_delay_law",
    "Verif.C26_receptions_as_announced",
    "Verif.C26_past_announcements_happened"
   ],
   "note": ""
  },
  {
   "property": "C27",
   "status": "proved",
   "theorems": [
    "Verif.C27_only_unreachable_pairs_refused"
   ],
   "note": ""
  },
  {
   "property": "C28",
   "status": "proved",
   "theorems": [
    "Verif.C28_provenance"
   ],
   "note": ""
  },
  {
   "property": "C29",
   "status": "proved",
   "theorems": [
    "Verif.C29_at_most_one_copy",
    "Verif.C29_attached_twice_receives_twice"
   ],
   "note": "Under the hypothesis that no device is attached twice to one channel; a theorem shows that the hypothesis is needed."
  },
  {
   "property": "C30",
   "status": "proved",
   "theorems": [
    "Verif.C30_in_order",
    "Verif.C30_constant_delay_in_order",
    "Verif.C30_no_position_in_order",
    "Verif.C30_shrinking_delay_reorders"
   ],
   "note": "For constant delays and for nodes without position; a theorem shows that shrinking delays reorder."
  },
  {
   "property": "C31",
   "status": "proved",
   "theorems": [
    "Verif.C31_on_sphere"
   ],
   "note": ""
  },
  {
   "property": "C32",
   "status": "proved",
   "theorems": [
    "Verif.C32_in_plane",
    "Verif.C32_inclination_attained"
   ],
   "note": ""
  },
  {
   "property": "C33",
   "status": "proved",
   "theorems": [
    "Verif.C33_rotation",
    "Verif.C33_normals_are_units",
    "Verif.C33_constant_distance"
   ],
   "note": ""
  },
  {
   "property": "C34",
   "status": "proved",
   "theorems": [
    "Verif.C34_velocity_tangential",
    "Verif.C34_circular_speed"
   ],
   "note": ""
  },
  {
   "property": "C35",
   "status": "partial",
   "theorems": [
    "Verif.C35_velocity_direction_partial",
    "Verif.C35_retrograde_velocity_is_backwards",
    "Verif.C35_not_for_all_inclinations"
   ],
   "note": "False of the code for inclinations above 90 degrees: the reported velocity is exactly opposite to the motion (negation and exact law proved); holds for inclinations in (0,90]."
  },
  {
   "property": "C36",
   "status": "partial",
   "theorems": [
    "Verif.C36_wrong_radius",
    "Verif.C36_progress_law",
    "Verif.C36_progress_partial"
   ],
   "note": "False of the code: the progress divides by the Earth radius, not by the orbit radius (negation proved); the exact law and the case of altitude 0 are proved."
  },
  {
   "property": "C37",
   "status": "proved",
   "theorems": [
    "Verif.C37_construction",
    "Verif.C37_set_altitude",
    "Verif.C37_set_inclination",
    "Verif.C37_set_position",
    "Verif.C37_getters_return_last_set"
   ],
   "note": ""
  },
  {
   "property": "C38",
   "status": "proved",
   "theorems": [
    "Verif.C38_bounded_age",
    "Verif.C38_arbitrary_precision",
    "Verif.C38_no_update_without_setter"
   ],
   "note": "The chain is started by a setter call; a further theorem shows that construction alone starts none."
  },
  {
   "property": "C39",
   "status": "partial",
   "theorems": [
    "Verif.C39_chains_accumulate",
    "Verif.C39_one_chain_per_setter",
    "Verif.C39_rate",
    "Verif.C39_one_setter_partial"
   ],
   "note": "False of the code: every setter call adds an update chain for good (negation, chain count and exact rate proved); holds after exactly one setter call."
  },
  {
   "property": "C40",
   "status": "proved",
   "theorems": [
    "Verif.C40_nth_call",
    "Verif.C40_each_slot_once",
    "Verif.C40_no_satellites"
   ],
   "note": ""
  },
  {
   "property": "C41",
   "status": "partial",
   "theorems": [
    "Verif.C41_on_surface",
    "Verif.C41_row_column_partial",
    "Verif.C41_column_stuck"
   ],
   "note": "Row and column law proved for LatNum < 2^32-1, surface for all; at LatNum = 2^32-1 the row counter wraps and the column never advances (proved)."
  },
  {
   "property": "C42",
   "status": "partial",
   "theorems": [
    "Verif.C42_exact",
    "Verif.C42_poles_repeat",
    "Verif.C42_product_wraps",
    "Verif.C42_single_longitude_partial"
   ],
   "note": "False of the code: the poles are rows of the grid, so nodes repeat and the last longitudes stay empty (negation and the exact extent proved); holds for a single longitude."
  },
  {
   "property": "C43",
   "status": "partial",
   "theorems": [
    "Verif.C43_law",
    "Verif.C43_pair_law",
    "Verif.C43_on_surface_partial",
    "Verif.C43_equator_at_pole",
    "Verif.C43_locations_collide",
    "Verif.C43_false",
    "Verif.C43_injective_north_partial"
   ],
   "note": "False of the code: the latitude factor is pi/90, so latitude x is placed at 90-2x (negation and law proved); positions are on the surface, injective for latitudes in (0,90)."
  },
  {
   "property": "C44",
   "status": "proved",
   "theorems": [
    "Verif.C44_link_budget",
    "Verif.C44_symmetric",
    "Verif.C44_accepted_iff",
    "Verif.C44_elevation_round_trip"
   ],
   "note": ""
  },
  {
   "property": "C45",
   "status": "proved",
   "theorems": [
    "Verif.C45_slant_range",
    "Verif.C45_decreases_with_mask",
    "Verif.C45_increases_with_radius"
   ],
   "note": ""
  },
  {
   "property": "C46",
   "status": "proved",
   "theorems": [
    "Verif.C46_accepted_above_mask"
   ],
   "note": ""
  },
  {
   "property": "C47",
   "status": "partial",
   "theorems": [
    "Verif.C47_exact_rule",
    "Verif.C47_zenith_rejected",
    "Verif.C47_zero_mask_partial"
   ],
   "note": "False of the code: the mask is applied at the satellite instead of the ground node, so links above the mask are rejected, even in the zenith (negation proved); the exact acceptance rule and the case of mask 0 are proved."
  },
  {
   "property": "C48",
   "status": "proved",
   "theorems": [
    "Verif.C48_line_of_sight",
    "Verif.C48_power",
    "Verif.C48_coincident",
    "Verif.C48_inside_sees_through"
   ],
   "note": "For distinct positions, at least one not inside the Earth; coincident positions and the need for the condition are covered by further theorems."
  },
  {
   "property": "C49",
   "status": "proved",
   "theorems": [
    "Verif.C49_symmetric"
   ],
   "note": ""
  },
  {
   "property": "C50",
   "status": "proved",
   "theorems": [
    "Verif.C50_location_round_trip",
    "Verif.C50_orbit_round_trip",
    "Verif.C50_location_file",
    "Verif.C50_orbit_file",
    "Verif.C50_seven_digits_lost"
   ],
   "note": ""
  },
  {
   "property": "C51",
   "status": "proved",
   "theorems": [
    "Verif.C51_location_accepted_iff",
    "Verif.C51_orbit_accepted_iff",
    "Verif.C51_independent_of_memory",
    "Verif.C51_missing_separator",
    "Verif.C51_wrong_separator"
   ],
   "note": ""
  },
  {
   "property": "C52",
   "status": "proved",
   "theorems": [
    "Verif.C52_ground_nodes",
    "Verif.C52_orbits",
    "Verif.C52_malformed_ends"
   ],
   "note": ""
  },
  {
   "property": "C53",
   "status": "proved",
   "theorems": [
    "Verif.C53_one_satellite_per_slot",
    "Verif.C53_orbit_list",
    "Verif.C53_conditions"
   ],
   "note": "For non-zero inclination and a node count that fits int; the other cases are covered by C53_conditions."
  },
  {
   "property": "C54",
   "status": "partial",
   "theorems": [
    "Verif.C54_order",
    "Verif.C54_increasing_partial",
    "Verif.C54_from_creation",
    "Verif.C54_stale_file",
    "Verif.C54_negative_last_time",
    "Verif.C54_no_file"
   ],
   "note": "False as stated: if no sample of a non-empty file is later than the last time, one stale sample is returned (C54_stale_file). C54_order is the exact law for arbitrary files; C54_increasing_partial the intended law for increasing files that end after the last time."
  },
  {
   "property": "C55",
   "status": "partial",
   "theorems": [
    "Verif.C55_law",
    "Verif.C55_consecutive_files_partial",
    "Verif.C55_same_range",
    "Verif.C55_missing_file"
   ],
   "note": "False: the last time is shared across files, so a second file over the same time range gives a single waypoint (C55_same_range). C55_law is the exact law; C55_consecutive_files_partial holds when each file starts after the end of the one before."
  },
  {
   "property": "C56",
   "status": "partial",
   "theorems": [
    "Verif.C56_rewind_partial",
    "Verif.C56_rewind_any_file",
    "Verif.C56_independent_of_history",
    "Verif.C56_attribute_does_not_rewind"
   ],
   "note": "False for files without a sample later than t (one stale sample, see C54). C56_rewind_any_file is the exact law, C56_independent_of_history the independence part without restriction."
  },
  {
   "property": "C57",
   "status": "proved",
   "theorems": [
    "Verif.C57_leo_install",
    "Verif.C57_isl_install",
    "Verif.C57_all_installed",
    "Verif.C57_by_name"
   ],
   "note": ""
  },
  {
   "property": "C58",
   "status": "partial",
   "theorems": [
    "Verif.C58_law",
    "Verif.C58_nd_same",
    "Verif.C58_aligned_partial",
    "Verif.C58_missing",
    "Verif.C58_fresh_isl",
    "Verif.C58_out_of_range",
    "Verif.C58_leo_helper_out_of_range"
   ],
   "note": "False of the code: the IP address of a device is looked up at the device's interface index on its node instead of its position in the container, so entries are wrong or the lookup reads past the container (exact law, missing entries, out-of-range read and the LeoHelper case proved); holds when the two indices coincide, and on a fresh inter-satellite network without other devices as described."
  },
  {
   "property": "C59",
   "status": "proved",
   "theorems": [
    "Verif.C59_preset_installed",
    "Verif.C59_links",
    "Verif.C59_other_names",
    "Verif.C59_replaces"
   ],
   "note": ""
  },
  {
   "property": "C60",
   "status": "partial",
   "theorems": [
    "Verif.C60_device_partial",
    "Verif.C60_device_defaults",
    "Verif.C60_address_overwritten",
    "Verif.C60_queue_partial",
    "Verif.C60_queue_attribute_kept",
    "Verif.C60_isl_queue_unreachable",
    "Verif.C60_channel_attributes_lost",
    "Verif.C60_isl_channel_partial",
    "Verif.C60_device_setting_rejected_iff"
   ],
   "note": "False of the code: no setting reaches the inter-satellite queues and channel attributes never survive on the gateway and terminal channels (both proved for all sequences of settings); proved for device attributes except address and queue, for the queues of the gateway and terminal networks and for the inter-satellite channel."
  },
  {
   "property": "C61",
   "status": "proved",
   "theorems": [
    "Verif.C61_proper_use_never_fails",
    "Verif.C61_run_is_proper",
    "Verif.C61_runs_to_quiescence",
    "Verif.C61_static_programs_never_fail",
    "Verif.C61_rules_needed"
   ],
   "note": ""
  },
  {
   "property": "C62",
   "status": "proved",
   "theorems": [
    "Verif.C62_helper_network_is_history",
    "Verif.C62_helper_network_never_fails",
    "Verif.C62_helper_network_delivers",
    "Verif.C62_leo_helper"
   ],
   "note": ""
  },
  {
   "property": "C63",
   "status": "proved",
   "theorems": [
    "Verif.C63_leo_packet",
    "Verif.C63_isl_unicast",
    "Verif.C63_isl_broadcast"
   ],
   "note": ""
  },
  {
   "property": "C64",
   "status": "partial",
   "theorems": [
    "Verif.C64_sniffer_reports_transmissions",
    "Verif.C64_mac_tx_reports_sends",
    "Verif.C64_phy_rx_reports_arrivals",
    "Verif.C64_promiscuous_sniffer_balance",
    "Verif.C64_mac_rx_counts_callbacks",
    "Verif.C64_phy_tx_drop_law",
    "Verif.C64_sniffer_misses_receptions"
   ],
   "note": "All parts proved for all histories except the last, which is false: Receive fires PromiscSniffer but never Sniffer (mock-net-device.cc:519), so the non-promiscuous sniffer shows no received frame (C64_sniffer_misses_receptions); the exact law is C64_sniffer_reports_transmissions. On an inter-satellite channel a broadcast without any listener is not reported as PhyTxDrop (this is the flooding case of C64_phy_tx_drop_law)."
  },
  {
   "property": "C65",
   "status": "proved",
   "theorems": [
    "Verif.C65_networks_are_independent",
    "Verif.C65_no_frame_crosses"
   ],
   "note": ""
  },
  {
   "property": "C66",
   "status": "partial",
   "theorems": [
    "Verif.C66_packets_are_values",
    "Verif.C66_held_packet_unchanged",
    "Verif.C66_one_send_per_packet",
    "Verif.C66_shared_packet_is_corrupted"
   ],
   "note": "False in general: Send adds its header to the caller's object and queues the pointer, so passing an object that still waits in a queue to Send again (also of another device) changes the accepted frame (C66_shared_packet_is_corrupted). Proved: as long as no held object is passed again or rewritten, the history equals the one on packet values in every respect (C66_packets_are_values), held packets do not change, and one Send per object is enough."
  },
  {
   "property": "C67",
   "status": "proved",
   "theorems": [
    "Verif.C67_in_plane_line_of_sight",
    "Verif.C67_ring",
    "Verif.C67_installed_planes",
    "Verif.C67_shipped_rings_closed",
    "Verif.C67_in_plane_in_order",
    "Verif.C67_in_plane_unicast"
   ],
   "note": ""
  },
  {
   "property": "C68",
   "status": "proved",
   "theorems": [
    "Verif.C68_ground_space_packet"
   ],
   "note": ""
  },
  {
   "property": "C69",
   "status": "partial",
   "theorems": [
    "Verif.C69_in_plane_apart_partial",
    "Verif.C69_equal_phase_distance",
    "Verif.C69_equal_phase_apart_partial",
    "Verif.C69_polar_planes_meet",
    "Verif.C69_tilted_planes_meet",
    "Verif.C69_distance_law",
    "Verif.C69_apart_partial",
    "Verif.C69_meet_iff",
    "Verif.C69_constellation_apart_partial",
    "Verif.C69_nodes_meet",
    "Verif.C69_even_constellations_meet"
   ],
   "note": "False in general: all planes start at the same phase, so satellites meet in polar orbits (C69_polar_planes_meet), in some tilted constellations (C69_tilted_planes_meet) and in every constellation with even numbers of planes and of satellites per plane (C69_even_constellations_meet). The exact distance of any two satellites at any time is proved (C69_distance_law), with the exact condition for coincidence, a lower bound for all times, a criterion for whole constellations (C69_constellation_apart_partial) and its sharpness (C69_nodes_meet)."
  },
  {
   "property": "C70",
   "status": "partial",
   "theorems": [
    "Verif.C70_nested_calls_no_assertion_partial",
    "Verif.C70_nested_calls_exactly_once_partial",
    "Verif.C70_nested_calls_fifo_partial",
    "Verif.C70_nested_calls_all_sent_partial",
    "Verif.C70_sniffer_send_is_fatal",
    "Verif.C70_next_frame_send_is_fatal",
    "Verif.C70_phyTxEnd_send_is_fatal",
    "Verif.C70_without_nested_calls",
    "Verif.C70_forwarding_is_plain",
    "Verif.C70_assertions_fail"
   ],
   "note": "False for code connected to PhyTxEnd, to the Dequeue trace of the queue and to the sniffers of the transmit path: the transmitter is READY while these fire, so a Send on the same device from there ends in an assertion failure (C70_sniffer_send_is_fatal, C70_next_frame_send_is_fatal, C70_phyTxEnd_send_is_fatal, C70_assertions_fail). Proved for all histories and call trees that make no such call; Enqueue and Drop traces of the queue are harmless. The calls may be mixed with setters, Attach and Detach on any device (C96); code connected to the trace source of the channel makes no calls."
  },
  {
   "property": "C71",
   "status": "partial",
   "theorems": [
    "Verif.C71_pcap_file_is_capture_partial",
    "Verif.C71_reception_recorded_iff",
    "Verif.C71_non_promiscuous_not_respected"
   ],
   "note": "The last sentence is false: the argument promiscuous is ignored and the file is always connected to PromiscSniffer (C71_non_promiscuous_not_respected). Everything else is proved for all programs."
  },
  {
   "property": "C72",
   "status": "partial",
   "theorems": [
    "Verif.C72_ascii_file_is_faithful",
    "Verif.C72_stream_repeats",
    "Verif.C72_stream_of_one_device_partial",
    "Verif.C72_leo_helper_repeats_records"
   ],
   "note": "Files: proved for all programs. Shared streams: each record appears as often as the helper connects the device (C72_stream_repeats, C72_stream_of_one_device_partial); LeoHelper connects ground and space devices three times, so there the claim is false (C72_leo_helper_repeats_records)."
  },
  {
   "property": "C73",
   "status": "proved",
   "theorems": [
    "Verif.C73_tracing_leaves_network_alone",
    "Verif.C73_file_names_distinct",
    "Verif.C73_pcap_of_all_devices",
    "Verif.C73_ascii_of_all_devices",
    "Verif.C73_stream_of_all_devices"
   ],
   "note": ""
  },
  {
   "property": "C74",
   "status": "proved",
   "theorems": [
    "Verif.C74_fifo_schedule",
    "Verif.C74_rate_is_kept"
   ],
   "note": ""
  },
  {
   "property": "C75",
   "status": "proved",
   "theorems": [
    "Verif.C75_bounded_wait",
    "Verif.C75_worst_case"
   ],
   "note": ""
  },
  {
   "property": "C76",
   "status": "partial",
   "theorems": [
    "Verif.C76_address_change_keeps_sending_false",
    "Verif.C76_renamed_sender_is_cut_off",
    "Verif.C76_renamed_receiver_is_still_served",
    "Verif.C76_renamed_device_cannot_be_detached",
    "Verif.C76_address_change_on_isl_partial"
   ],
   "note": "False on ground/space channels: the index keeps the old address, so frames of the renamed device get lost and it can no longer be detached; it is still served (exact law proved). Proved for inter-satellite channels with an address nobody had."
  },
  {
   "property": "C77",
   "status": "partial",
   "theorems": [
    "Verif.C77_attach_keeps_others_false",
    "Verif.C77_same_address_displaces",
    "Verif.C77_same_address_on_both_sides_faults",
    "Verif.C77_attach_keeps_others_partial"
   ],
   "note": "False for devices that share an address: the newcomer displaces the other one, and on different sides neither can send (assertion). Proved for an address no device of the channel ever had."
  },
  {
   "property": "C78",
   "status": "partial",
   "theorems": [
    "Verif.C78_link_state",
    "Verif.C78_changes_are_reported",
    "Verif.C78_link_up_iff_attached_false",
    "Verif.C78_up_is_attached",
    "Verif.C78_link_up_iff_attached_partial"
   ],
   "note": "Notices, the exact state and 'up implies attached' are proved for all histories. 'Attached implies up' is false for devices used with two channels; proved for devices that are attached to one channel at a time."
  },
  {
   "property": "C79",
   "status": "proved",
   "theorems": [
    "Verif.C79_device_ids",
    "Verif.C79_own_id"
   ],
   "note": ""
  },
  {
   "property": "C80",
   "status": "partial",
   "theorems": [
    "Verif.C80_group_addresses_false",
    "Verif.C80_group_addresses_law",
    "Verif.C80_group_packet_on_leo_partial",
    "Verif.C80_group_packet_on_isl"
   ],
   "note": "GetMulticast ignores the group: right exactly for groups whose low 23 (32) bits are zero. Delivery is proved on quiet ground/space channels; on inter-satellite channels group packets reach nobody."
  },
  {
   "property": "C81",
   "status": "partial",
   "theorems": [
    "Verif.C81_stopped_iff_full_partial",
    "Verif.C81_obedient_sender_never_refused_partial",
    "Verif.C81_completion_wakes_partial",
    "Verif.C81_unconnected_never_stops",
    "Verif.C81_bytes_per_connection",
    "Verif.C81_helper_connects_twice",
    "Verif.C81_refused_while_not_stopped"
   ],
   "note": "Proved for devices whose sinks are connected before the first Send, as LeoChannelHelper does. False for devices installed by IslHelper, which creates no NetDeviceQueueInterface (C81_unconnected_never_stops, C81_refused_while_not_stopped). Devices of LeoChannelHelper are connected twice (helper and DoInitialize), so bytes are counted twice (C81_helper_connects_twice, C81_bytes_per_connection); the flag is not affected."
  },
  {
   "property": "C82",
   "status": "proved",
   "theorems": [
    "Verif.C82_distance_of_links",
    "Verif.C82_delay_bounds",
    "Verif.C82_horizon_attained"
   ],
   "note": "Distances from the positions at the moment of the hand-over; Seconds () is any monotone conversion. For ground/space links the slant range is that of the node farther from the centre, which C45 shows to be the code's cut-off distance."
  },
  {
   "property": "C83",
   "status": "proved",
   "theorems": [
    "Verif.C83_never_closer",
    "Verif.C83_never_linked",
    "Verif.C83_bound_attained"
   ],
   "note": ""
  },
  {
   "property": "C84",
   "status": "proved",
   "theorems": [
    "Verif.C84_regular_passes",
    "Verif.C84_installed",
    "Verif.C84_starlink"
   ],
   "note": "For the positions satellites report with the default precision of one second, updates running as scheduled. Orbit.CalcLatitude lets the planes drift once per day, so the period is a day divided by the number of planes."
  },
  {
   "property": "C85",
   "status": "proved",
   "theorems": [
    "Verif.C85_latency",
    "Verif.C85_on_air_in_time",
    "Verif.C85_isl_latency",
    "Verif.C85_leo_latency"
   ],
   "note": "Bound on the propagation delay as hypothesis in C85_latency; C85_isl_latency and C85_leo_latency derive it from C82 for motions of bounded height."
  },
  {
   "property": "C86",
   "status": "proved",
   "theorems": [
    "Verif.C86_distance_travelled",
    "Verif.C86_rate",
    "Verif.C86_reported_error",
    "Verif.C86_low_orbit"
   ],
   "note": "Without any setter call no update is ever scheduled and the position stays that of the construction (C38_no_update_without_setter); the helper makes setter calls on every satellite it installs."
  },
  {
   "property": "C87",
   "status": "proved",
   "theorems": [
    "Verif.C87_equal_height",
    "Verif.C87_line_of_sight",
    "Verif.C87_always",
    "Verif.C87_never",
    "Verif.C87_in_turns",
    "Verif.C87_same_slot",
    "Verif.C87_polar_meet",
    "Verif.C87_installed",
    "Verif.C87_shipped_always",
    "Verif.C87_shipped_in_turns",
    "Verif.C87_unicast"
   ],
   "note": "Equal height and inclination. In polar planes equal slots meet over the poles, where GetLos reports no line of sight (C87_polar_meet). The case of alternation has a margin of one nanosecond of motion, the resolution of Time."
  },
  {
   "property": "C88",
   "status": "partial",
   "theorems": [
    "Verif.C88_as_if_kept_partial",
    "Verif.C88_same_faults_partial",
    "Verif.C88_detach_first",
    "Verif.C88_isl_keeps_devices",
    "Verif.C88_disposed_while_sending",
    "Verif.C88_left_in_channel",
    "Verif.C88_send_after",
    "Verif.C88_never_comes_back",
    "Verif.C88_completion_of_disposed",
    "Verif.C88_disposal_is_harmless_false"
   ],
   "note": "False if the device is still in a channel or transmitting when it is disposed of (C88_left_in_channel: next transmission to it dereferences null; C88_disposed_while_sending: no history gets past the end of its transmission; C88_send_after). Proved for devices nothing refers to (same log, events, clock, channels, faults), with C88_detach_first saying how a ground/space device gets there; a device attached to an inter-satellite channel never does."
  },
  {
   "property": "C89",
   "status": "proved",
   "theorems": [
    "Verif.C89_trace",
    "Verif.C89_sample_times",
    "Verif.C89_each_satellite",
    "Verif.C89_silent",
    "Verif.C89_line_count",
    "Verif.C89_builtin_orbits"
   ],
   "note": ""
  },
  {
   "property": "C90",
   "status": "proved",
   "theorems": [
    "Verif.C90_alone",
    "Verif.C90_calls_on_others",
    "Verif.C90_reachable",
    "Verif.C90_on_sphere",
    "Verif.C90_installed"
   ],
   "note": ""
  },
  {
   "property": "C91",
   "status": "proved",
   "theorems": [
    "Verif.C91_builds",
    "Verif.C91_grid",
    "Verif.C91_unknown_constellation",
    "Verif.C91_reported",
    "Verif.C91_never_fails",
    "Verif.C91_ground_space_packet",
    "Verif.C91_isl_packet",
    "Verif.C91_service",
    "Verif.C91_default_orbits",
    "Verif.C91_default_users_served",
    "Verif.C91_requested_place_unserved"
   ],
   "note": ""
  },
  {
   "property": "C92",
   "status": "proved",
   "theorems": [
    "Verif.C92_example_route",
    "Verif.C92_forwarding_is_sending",
    "Verif.C92_never_fails",
    "Verif.C92_route",
    "Verif.C92_simple_route",
    "Verif.C92_latency"
   ],
   "note": ""
  },
  {
   "property": "C93",
   "status": "partial",
   "theorems": [
    "Verif.C93_leo",
    "Verif.C93_one_destination_partial",
    "Verif.C93_route",
    "Verif.C93_programs",
    "Verif.C93_false"
   ],
   "note": "False on inter-satellite channels if a device sends to several addresses: a packet that waited in the queue is transmitted to the address of the packet before it (C93_false). Proved for every device on a ground/space channel (C93_leo) and for every device that sends to one address only (C93_one_destination_partial), for routes over such hops (C93_route) and for programs that forward from the callbacks (C93_programs)."
  },
  {
   "property": "C94",
   "status": "proved",
   "theorems": [
    "Verif.C94_binary53",
    "Verif.C94_ground_space",
    "Verif.C94_line_of_sight",
    "Verif.C94_delay"
   ],
   "note": ""
  },
  {
   "property": "C95",
   "status": "proved",
   "theorems": [
    "Verif.C95_polar_sign",
    "Verif.C95_positions",
    "Verif.C95_velocities",
    "Verif.C95_stations",
    "Verif.C95_grid",
    "Verif.C95_ground_space",
    "Verif.C95_line_of_sight",
    "Verif.C95_delay"
   ],
   "note": ""
  },
  {
   "property": "C96",
   "status": "proved",
   "theorems": [
    "Verif.C96_no_assertion",
    "Verif.C96_exactly_once",
    "Verif.C96_link_checked_once",
    "Verif.C96_settings_apply_to_frame_sent",
    "Verif.C96_settings_apply_to_next_frame",
    "Verif.C96_settings_apply_to_frame_received"
   ],
   "note": ""
  },
  {
   "property": "C97",
   "status": "partial",
   "theorems": [
    "Verif.C97_indices_ordered",
    "Verif.C97_no_invalid_iterator_partial",
    "Verif.C97_no_endless_loop_partial",
    "Verif.C97_detach_receiver_fatal",
    "Verif.C97_served_device_stays",
    "Verif.C97_receivers_kept",
    "Verif.C97_attached_meanwhile_leo",
    "Verif.C97_attached_meanwhile_isl",
    "Verif.C97_broadcast_never_ends"
   ],
   "note": "False in two cases. Detaching, from the trace source, the device to which a ground/space channel is handing the frame erases the map element under the iterator of the loop, whose increment is undefined (C97_detach_receiver_fatal); attaching a device at every delivery of an inter-satellite broadcast makes the loop endless (C97_broadcast_never_ends). Proved for all programs that do neither from there; the order of the indexes and the statements about deliveries hold without restriction on other calls."
  },
  {
   "property": "C98",
   "status": "proved",
   "theorems": [
    "Verif.C98_flood_ends",
    "Verif.C98_settles",
    "Verif.C98_answers",
    "Verif.C98_relay_is_flood",
    "Verif.C98_endless_arrivals",
    "Verif.C98_never_ends",
    "Verif.C98_ping_pong"
   ],
   "note": ""
  },
  {
   "property": "C99",
   "status": "proved",
   "theorems": [
    "Verif.C99_fifo",
    "Verif.C99_no_wrong_state",
    "Verif.C99_null_queue",
    "Verif.C99_last_given",
    "Verif.C99_null_queue_used",
    "Verif.C99_alternating",
    "Verif.C99_stranded",
    "Verif.C99_refines",
    "Verif.C99_own_queues"
   ],
   "note": ""
  },
  {
   "property": "C100",
   "status": "partial",
   "theorems": [
    "Verif.C100_idle_waits",
    "Verif.C100_head_first",
    "Verif.C100_jammed",
    "Verif.C100_waiting_is_busy_partial",
    "Verif.C100_gets_going_false",
    "Verif.C100_sends_its_own_false",
    "Verif.C100_not_a_frame"
   ],
   "note": "False if a queue with frames in it is given to an idle device or filled from outside while its device is idle (C100_gets_going_false), and if two devices share a queue (C100_sends_its_own_false). Exact laws: such a device waits for the next Send (C100_idle_waits), which puts the oldest frame on the air to the destination of the new packet (C100_head_first); if the queue is full no Send is ever accepted and the device is stuck (C100_jammed). Proved for histories that share no queue and give or fill queues only while their device transmits (C100_waiting_is_busy_partial); for one queue per device see C99_own_queues with C02 and C05."
  },
  {
   "property": "C101",
   "status": "proved",
   "theorems": [
    "Verif.C101_decided",
    "Verif.C101_isl_device",
    "Verif.C101_ground_space",
    "Verif.C101_constellation",
    "Verif.C101_presets",
    "Verif.C101_line_of_sight",
    "Verif.C101_network",
    "Verif.C101_at_the_threshold"
   ],
   "note": ""
  },
  {
   "property": "C102",
   "status": "partial",
   "theorems": [
    "Verif.C102_senders",
    "Verif.C102_receivers",
    "Verif.C102_isl_partial",
    "Verif.C102_isl_end_partial",
    "Verif.C102_vanishes_leo",
    "Verif.C102_vanishes_isl"
   ],
   "note": "The balances of senders and of receivers hold in general. The last sentence is false: a frame that reaches only devices it is not addressed to is ignored without a trace, between ground and space if the addressee is out of reach (C102_vanishes_leo), between satellites because queued frames are carried to the destination of an earlier Send (C102_vanishes_isl, see C09). Proved for inter-satellite links with one unicast peer per device and fixed addresses, at any time and at the end."
  },
  {
   "property": "C103",
   "status": "partial",
   "theorems": [
    "Verif.C103_exact_positions",
    "Verif.C103_reported_positions_partial",
    "Verif.C103_satellites",
    "Verif.C103_station",
    "Verif.C103_example",
    "Verif.C103_overtakes"
   ],
   "note": "The last sentence is false for positions that are updated at intervals: with frames shorter than a few microseconds the second of two frames sent around an update of the satellite's position arrives first (C103_overtakes, a station and a satellite 1000 km high in range of each other, updates every second). Everything else is proved; the case of reported positions needs the bound on the transmission time."
  },
  {
   "property": "C104",
   "status": "proved",
   "theorems": [
    "Verif.C104_conversion",
    "Verif.C104_location_accepted_iff",
    "Verif.C104_orbit_accepted_iff",
    "Verif.C104_location_round_trip",
    "Verif.C104_orbit_round_trip",
    "Verif.C104_location_reread",
    "Verif.C104_orbit_reread",
    "Verif.C104_location_file",
    "Verif.C104_orbit_file",
    "Verif.C104_location_file_close",
    "Verif.C104_orbit_file_close",
    "Verif.C104_ground_nodes",
    "Verif.C104_orbits"
   ],
   "note": ""
  },
  {
   "property": "C105",
   "status": "proved",
   "theorems": [
    "Verif.C105_sender",
    "Verif.C105_receiver",
    "Verif.C105_receiver_bits",
    "Verif.C105_saturated",
    "Verif.C105_medium_not_shared"
   ],
   "note": ""
  },
  {
   "property": "C106",
   "status": "partial",
   "theorems": [
    "Verif.C106_satellites_alive_partial",
    "Verif.C106_destroyed_satellite_is_fatal",
    "Verif.C106_orbit_tests_use_after_free",
    "Verif.C106_completion_finds_device",
    "Verif.C106_release_is_harmless"
   ],
   "note": "Proved for devices without restriction. False for mobility models: one that is destroyed while an update is pending has it run on freed memory (C106_orbit_tests_use_after_free: the repository's own tests do this). Proved for all programs that give up a model only when it belongs to a node or has no update pending, and that no other program gets beyond the next update (C106_destroyed_satellite_is_fatal)."
  },
  {
   "property": "C107",
   "status": "proved",
   "theorems": [
    "Verif.C107_always_near",
    "Verif.C107_spacing_attained",
    "Verif.C107_installed",
    "Verif.C107_starlink",
    "Verif.C107_example",
    "Verif.C107_default_users",
    "Verif.C107_default_packet"
   ],
   "note": ""
  },
  {
   "property": "C108",
   "status": "proved",
   "theorems": [
    "Verif.C108_neighbours_linked",
    "Verif.C108_delivery",
    "Verif.C108_default_users"
   ],
   "note": ""
  },
  {
   "property": "C109",
   "status": "proved",
   "theorems": [
    "Verif.C109_plain",
    "Verif.C109_steady",
    "Verif.C109_moment",
    "Verif.C109_realised",
    "Verif.C109_default_users",
    "Verif.C109_default_packet",
    "Verif.C109_not_always_steady"
   ],
   "note": ""
  },
  {
   "property": "C110",
   "status": "partial",
   "theorems": [
    "Verif.C110_law",
    "Verif.C110_follows_file_partial",
    "Verif.C110_stands_still",
    "Verif.C110_lost",
    "Verif.C110_record_at_zero",
    "Verif.C110_altitude",
    "Verif.C110_in_order",
    "Verif.C110_inside_earth"
   ],
   "note": "Proved for files whose times follow one another (in particular one file) and for any files as an exact law (C110_law). False for several files over the same time range: every satellite but the first stands still at the end of its file (C110_stands_still), and if the uninitialised time read at the end of that file is negative, all satellites behind it have no waypoints and are at the centre of the Earth (C110_lost). A record at time zero is passed over (C110_record_at_zero)."
  },
  {
   "property": "C111",
   "status": "partial",
   "theorems": [
    "Verif.C111_inside",
    "Verif.C111_on_sphere",
    "Verif.C111_alone",
    "Verif.C111_reachable",
    "Verif.C111_getters",
    "Verif.C111_age",
    "Verif.C111_chains",
    "Verif.C111_no_calls",
    "Verif.C111_doubles_partial",
    "Verif.C111_endless"
   ],
   "note": "Positions, getters, states and ages are proved for all nestings of calls (C111_inside, C111_on_sphere, C111_getters, C111_alone, C111_reachable, C111_age); every call of a setter adds one chain of updates (C111_chains). False: the last clause. A sink that sets a parameter once per update doubles the notifications in every interval (C111_doubles_partial), and one that does so at every notification never returns (C111_endless). The doubling is stated for one satellite and the sink given there."
  },
  {
   "property": "C112",
   "status": "proved",
   "theorems": [
    "Verif.C112_way",
    "Verif.C112_light",
    "Verif.C112_exact",
    "Verif.C112_forwarding",
    "Verif.C112_example",
    "Verif.C112_default_users",
    "Verif.C112_outruns"
   ],
   "note": "C112_way: the chain of transmissions, with no node passed twice, from a Send of the source on; C112_light and C112_exact: the distance; C112_forwarding: programs that pass packets on from receive callbacks meet the hypothesis; C112_example and C112_default_users: the example programs (28 ms). The motion of the nodes cannot be left out: delays are computed from both positions at the beginning of the transmission, so a packet to a satellite ahead outruns light by 10 m over 737 km (C112_outruns). Packets sent in answer to a reception are assumed to leave from the node of the reception (CarriedFrom); packets fit the MTU."
  },
  {
   "property": "C113",
   "status": "proved",
   "theorems": [
    "Verif.C113_starlink_read",
    "Verif.C113_serves",
    "Verif.C113_delivery",
    "Verif.C113_users"
   ],
   "note": "C113_starlink_read (the file), C113_serves (coverage), C113_delivery (connection), C113_users. With the settings TelesatUser (mask 55 degrees) and with data/orbits/telesat.csv the sufficient conditions of C107 and C108 do not hold; nothing is claimed there. The latitudes of users are those entered, which the code doubles (C43)."
  },
  {
   "property": "C114",
   "status": "partial",
   "theorems": [
    "Verif.C114_client",
    "Verif.C114_lines",
    "Verif.C114_distance",
    "Verif.C114_count",
    "Verif.C114_count_whole_partial",
    "Verif.C114_count_short",
    "Verif.C114_default"
   ],
   "note": "The part about the lines is proved (C114_lines, C114_distance, C114_default, C114_client). The number of packets is false as stated: UintegerValue (duration / interval) cuts off the fraction of a rounded quotient, so that a duration of 0.3 at an interval of 0.1 is two packets (C114_count_short). C114_count is the exact law, with all packets due before the end; C114_count_whole_partial: whole numbers of seconds are divided exactly. An interval of zero is undefined behaviour."
  },
  {
   "property": "C115",
   "status": "proved",
   "theorems": [
    "Verif.C115_runs",
    "Verif.C115_sky",
    "Verif.C115_frame",
    "Verif.C115_mutual",
    "Verif.C115_longitude",
    "Verif.C115_later",
    "Verif.C115_installed",
    "Verif.C115_planes"
   ],
   "note": ""
  },
  {
   "property": "C116",
   "status": "proved",
   "theorems": [
    "Verif.C116_plan",
    "Verif.C116_distinct",
    "Verif.C116_destination",
    "Verif.C116_too_many",
    "Verif.C116_default"
   ],
   "note": ""
  },
  {
   "property": "C117",
   "status": "proved",
   "theorems": [
    "Verif.C117_read",
    "Verif.C117_linked",
    "Verif.C117_gap",
    "Verif.C117_unheard",
    "Verif.C117_users"
   ],
   "note": ""
  },
  {
   "property": "C118",
   "status": "proved",
   "theorems": [
    "Verif.C118_flooding",
    "Verif.C118_nodes"
   ],
   "note": ""
  },
  {
   "property": "C119",
   "status": "proved",
   "theorems": [
    "Verif.C119_flood",
    "Verif.C119_starlink",
    "Verif.C119_default_users"
   ],
   "note": ""
  },
  {
   "property": "C120",
   "status": "proved",
   "theorems": [
    "Verif.C120_conversation",
    "Verif.C120_starlink",
    "Verif.C120_default_users"
   ],
   "note": ""
  },
  {
   "property": "C121",
   "status": "partial",
   "theorems": [
    "Verif.C121_drops",
    "Verif.C121_txrx_partial",
    "Verif.C121_both_partial",
    "Verif.C121_fatal",
    "Verif.C121_silent",
    "Verif.C121_sizes",
    "Verif.C121_total",
    "Verif.C121_sorted",
    "Verif.C121_lost_partial",
    "Verif.C121_unlogged",
    "Verif.C121_txrx_fails"
   ],
   "note": "Proved for drops (C121_drops) and for what can be read off the lines (C121_sizes, C121_total, C121_sorted). False of traceTxRx (C121_txrx_fails): it connects to a source PhyRx that does not exist, which stops the program where Config::Connect insists on a match (C121_fatal) and prints no line for the physical layer otherwise; C121_txrx_partial and C121_both_partial say what is printed then. That every lost packet has a line is false (C121_unlogged); C121_lost_partial proves it for inter-satellite links with one peer per device."
  },
  {
   "property": "C122",
   "status": "proved",
   "theorems": [
    "Verif.C122_example",
    "Verif.C122_starlink",
    "Verif.C122_default_users",
    "Verif.C122_calls",
    "Verif.C122_nothing_else",
    "Verif.C122_number",
    "Verif.C122_once",
    "Verif.C122_air"
   ],
   "note": ""
  },
  {
   "property": "C123",
   "status": "proved",
   "theorems": [
    "Verif.C123_table",
    "Verif.C123_rows",
    "Verif.C123_no_better_than_free_space"
   ],
   "note": ""
  },
  {
   "property": "C124",
   "status": "proved",
   "theorems": [
    "Verif.C124_traces",
    "Verif.C124_inter_satellite_unseen",
    "Verif.C124_not_all_captured",
    "Verif.C124_off"
   ],
   "note": ""
  },
  {
   "property": "C125",
   "status": "proved",
   "theorems": [
    "Verif.C125_lines",
    "Verif.C125_unambiguous",
    "Verif.C125_read",
    "Verif.C125_second_user",
    "Verif.C125_off",
    "Verif.C125_colons"
   ],
   "note": ""
  },
  {
   "property": "C126",
   "status": "partial",
   "theorems": [
    "Verif.C126_output_partial",
    "Verif.C126_fatal",
    "Verif.C126_not_echoed",
    "Verif.C126_connected"
   ],
   "note": "False of the code (C126_not_echoed): the trace sources are connected before the simulation, when there are no sockets yet. Where Config::Connect insists on a match the program stops (C126_fatal); otherwise it prints the last line only, with the right numbers (C126_output_partial). C126_connected proves for all histories which segments have a line."
  },
  {
   "property": "C127",
   "status": "proved",
   "theorems": [
    "Verif.C127_file",
    "Verif.C127_unambiguous",
    "Verif.C127_not_csv",
    "Verif.C127_coarse"
   ],
   "note": ""
  },
  {
   "property": "C128",
   "status": "partial",
   "theorems": [
    "Verif.C128_broadcast",
    "Verif.C128_once",
    "Verif.C128_once_any_helper",
    "Verif.C128_stops",
    "Verif.C128_addresses_partial"
   ],
   "note": "False of the code under the assumed behaviour of ns-3's Ipv4AddressHelper (written from memory, see DESIGN.md section 1): the address helper is never given a base, so the first inter-satellite device gets 255.255.255.255 whatever the shift gives (C128_broadcast), and a second installation in the same program stops (C128_once). Where the shift gives 0 the program stops with two satellites (C128_stops). C128_addresses_partial: where the count is taken modulo 32, all addresses differ and all but the first are good. C128_once_any_helper needs no assumption on the initial values: whatever a new helper holds, a second installation stops."
  }
 ]
}